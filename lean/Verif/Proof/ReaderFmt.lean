import Verif.Proof.Reader
/-!
# From decoding one record to reading a file
-/

namespace Verif.Reader
open Verif Verif.Spec.Reader

/-- decoding one record -/
def Decodes (F : Fmt) (L : Layout) (obs : List Fld) (ok : (Fld → Int) → Prop) (mean : (Fld → Int) → Vals) : Prop :=
  ∀ v, Fits L v → ok v → ∀ pre post x, ∃ y, F.decode (pre ++ encode L v ++ post) pre.length x = .ok y ∧ ∀ f ∈ obs, y f = mean v f

theorem sampled_map {α β : Type} (hash : Nat → Nat) (idOf : β → Nat) (f : α → β) : ∀ (l : List α) (s : Option Sampler),
    sampled hash idOf s (l.map f) = (sampled hash (fun a => idOf (f a)) s l).map f
  | l, none => by simp [sampled]
  | l, some (.spatial inv) => by
    simp only [sampled, List.filter_map]; rfl
  | [], some (.temporal inv n) => by simp [sampled]
  | a :: l, some (.temporal inv n) => by
    rw [List.map_cons, sampled, sampled]
    split
    · rw [sampled_map hash idOf f l, List.map_cons]
    · rw [sampled_map hash idOf f l]

theorem capped_map {α β : Type} (cap : Int) (n : Nat) (f : α → β) (l : List α) : capped cap n (l.map f) = (capped cap n l).map f := by
  unfold capped; split
  · rw [List.map_take]
  · rfl

/-- keep only the observed members -/
def restrict (obs : List Fld) (x : Vals) : Vals := fun f => if f ∈ obs then x f else 0

theorem encodeAll_append (L : Layout) (a b : List (Fld → Int)) : encodeAll L (a ++ b) = encodeAll L a ++ encodeAll L b := by
  simp [encodeAll]

theorem encodeAll_length (L : Layout) (vs : List (Fld → Int)) : (encodeAll L vs).length = vs.length * size L := by
  induction vs with
  | nil => simp [encodeAll]
  | cons v vs ih =>
    have : encodeAll L (v :: vs) = encode L v ++ encodeAll L vs := by simp [encodeAll]
    rw [this, List.length_append, ih, encode_length, List.length_cons, Nat.add_mul]; omega

theorem lays_of_decodes {F : Fmt} {L : Layout} {obs : List Fld} {ok : (Fld → Int) → Prop} {mean : (Fld → Int) → Vals} {zero : Vals → Bool}
    {d : Bool → Bool}
    (hdec : Decodes F L obs ok mean) (hitem : F.item = size L) (hpos : 0 < size L) (hid : .id ∈ obs) (hsz : .size ∈ obs)
    (hskip : ∀ iz fwd y, F.skip iz fwd y = (d fwd && iz && zero (restrict obs y)))
    (vs : List (Fld → Int)) (hv : ∀ v ∈ vs, Fits L v ∧ ok v) :
    Lays F (encodeAll L vs) 0 (restrict obs) (fun iz fwd a => d fwd && iz && zero a) (fun a => a.set .size 1) (fun a => (a .id).toNat)
      (vs.map (fun v => restrict obs (mean v))) := by
  refine ⟨by omega, ?_, ?_, hskip, ?_, ?_⟩
  · rw [encodeAll_length, List.length_map, hitem]; omega
  · intro pre a post e x
    obtain ⟨vp, rest, rfl, rfl, hrest⟩ := List.map_eq_append_iff.1 e
    obtain ⟨v, vq, rfl, rfl, rfl⟩ := List.map_eq_cons_iff.1 hrest
    obtain ⟨hf, ho⟩ := hv v (by simp)
    obtain ⟨y, ey, hy⟩ := hdec v hf ho (encodeAll L vp) (encodeAll L vq) x
    refine ⟨y, ?_, ?_⟩
    · rw [encodeAll_append, show encodeAll L (v :: vq) = encode L v ++ encodeAll L vq by simp [encodeAll], ← List.append_assoc]
      rw [encodeAll_length] at ey
      rw [List.length_map, hitem, Nat.zero_add]
      exact ey
    · funext f
      unfold restrict
      by_cases h : f ∈ obs
      · simp [h, hy f h]
      · simp [h]
  · intro y
    funext f
    unfold restrict Vals.set
    by_cases h : f = .size
    · subst h; simp [hsz]
    · simp [h]
  · intro y; simp [restrict, hid]

theorem delivers_of_decodes {F : Fmt} {L : Layout} {obs : List Fld} {ok : (Fld → Int) → Prop} {mean : (Fld → Int) → Vals} {zero : Vals → Bool}
    {d : Bool → Bool} (hd : d true = true)
    (hdec : Decodes F L obs ok mean) (hitem : F.item = size L) (hpos : 0 < size L) (hid : .id ∈ obs) (hsz : .size ∈ obs)
    (hskip : ∀ iz fwd y, F.skip iz fwd y = (d fwd && iz && zero (restrict obs y)))
    (hzero : ∀ y, zero (restrict obs y) = zero y) :
    Delivers F L obs ok mean zero := by
  intro vs hv hne hash p hs hr
  have LL := lays_of_decodes hdec hitem hpos hid hsz hskip vs hv
  have hlen : (encodeAll L vs).length ≠ 0 := by
    rw [encodeAll_length]
    have : vs.length ≠ 0 := fun h => hne (List.length_eq_zero_iff.1 h)
    exact Nat.mul_ne_zero this (by omega)
  have hset : setup F (encodeAll L vs) p = .ok ⟨F, encodeAll L vs, p.start, p.start, p.ignoreZero, p.ignoreSize, p.cap, 0, true, p.sampler.map Sampler.clone, p⟩ := by
    unfold setup; rw [if_neg hlen]
  have hat : At F (encodeAll L vs) 0 (vs.map (fun v => restrict obs (mean v)))
      ⟨F, encodeAll L vs, p.start, p.start, p.ignoreZero, p.ignoreSize, p.cap, 0, true, p.sampler.map Sampler.clone, p⟩ []
      (vs.map (fun v => restrict obs (mean v))) := ⟨rfl, rfl, hs, rfl, by simp [hs]⟩
  have hsok : SOkO (p.sampler.map Sampler.clone) := by
    cases hsm : p.sampler with
    | none => trivial
    | some s => cases s with
      | spatial inv => rw [hsm] at hr; exact hr
      | temporal inv n => trivial
  have rep : Rep F (encodeAll L vs) 0 (vs.map (fun v => restrict obs (mean v))) (fun iz fwd a => d fwd && iz && zero a)
    ⟨F, encodeAll L vs, p.start, p.start, p.ignoreZero, p.ignoreSize, p.cap, 0, true, p.sampler.map Sampler.clone, p⟩ _ := ⟨_, _, hat, rfl⟩
  obtain ⟨qs, rd', er, va, mm⟩ := readAll_spec LL hash ((encodeAll L vs).length + 1) _ newRequest _ rfl hsok rep (rep_length LL rep)
  refine ⟨_, qs, rd', hset, er, va, ?_⟩
  have hl : live (fun iz fwd a => d fwd && iz && zero a)
      ⟨F, encodeAll L vs, p.start, p.start, p.ignoreZero, p.ignoreSize, p.cap, 0, true, p.sampler.map Sampler.clone, p⟩
      (vs.map (fun v => restrict obs (mean v))) =
      (capped p.cap 0 ((vs.map mean).filter (fun v => !(p.ignoreZero && zero v)))).map (restrict obs) := by
    unfold live
    simp only [hd, Bool.true_and]
    rw [← capped_map]
    congr 1
    rw [show (fun v => restrict obs (mean v)) = restrict obs ∘ mean from rfl, ← List.map_map, List.filter_map]
    congr 1
    apply List.filter_congr
    intro v _
    simp [hzero]
  rw [hl, sampled_map] at mm
  have hobs : ∀ x : Vals, obs.map (restrict obs x) = obs.map x := by
    intro x
    apply List.map_congr_left
    intro f hf; simp [restrict, hf]
  have h1 : qs.map (fun q => obs.map q.vals) = (qs.map (fun q => restrict obs q.vals)).map (fun x => obs.map x) := by
    rw [List.map_map]
    apply List.map_congr_left
    intro q _; exact (hobs q.vals).symm
  rw [h1, mm, List.map_map, List.map_map]
  unfold expected
  rw [List.map_map]
  have hidr : ∀ y : Vals, ((restrict obs y) .id).toNat = (y .id).toNat := by intro y; simp [restrict, hid]
  simp only [hidr]
  apply List.map_congr_left
  intro y _
  simp only [Function.comp]
  unfold shown shownSize
  simp only
  split
  · rw [← hobs (Vals.set y .size 1)]
    congr 1
    funext f
    unfold restrict Vals.set
    by_cases h : f = .size
    · subst h; simp [hsz]
    · simp [h]
  · exact hobs y

/-- representable in the member of `request_t` -/
def inDest : Fld → Int → Prop
  | .time, v | .size, v | .next, v => -(2 ^ 63) ≤ v ∧ v < 2 ^ 63
  | .id, v | .ts, v => 0 ≤ v ∧ v < 2 ^ 64
  | .op, v | .kv, v | .opTtl, v => 0 ≤ v ∧ v < 2 ^ 32
  | .keySize, v => 0 ≤ v ∧ v < 2 ^ 16
  | .valSize, v => 0 ≤ v ∧ v < 2 ^ 48
  | .ttl, v | .ns, v | .content, v | .tenant, v | .bucket, v | .age, v | .host, v => -(2 ^ 31) ≤ v ∧ v < 2 ^ 31
  | .ext, v | .colo, v | .nLevel, v | .nParam, v => -(2 ^ 15) ≤ v ∧ v < 2 ^ 15
  | .method, v => -(2 ^ 7) ≤ v ∧ v < 2 ^ 7

theorem store_id : ∀ (f : Fld) (v : Int), inDest f v → store f v = v
  | .time, v, h | .size, v, h | .next, v, h => sWrap_id (by decide) h
  | .ttl, v, h | .ns, v, h | .content, v, h | .tenant, v, h | .bucket, v, h | .age, v, h | .host, v, h => sWrap_id (by decide) h
  | .ext, v, h | .colo, v, h | .nLevel, v, h | .nParam, v, h => sWrap_id (by decide) h
  | .method, v, h => sWrap_id (by decide) h
  | .id, v, h | .ts, v, h | .op, v, h | .kv, v, h | .opTtl, v, h | .keySize, v, h | .valSize, v, h => Int.emod_eq_of_lt h.1 h.2

/-- the loaded members have the written values -/
theorem loads_ok {F : Fmt} {L : Layout} (hl : ∀ l ∈ F.loads, l ∈ loadsAt 0 L) (hw : ∀ f ∈ L, 0 < f.width) {v : Fld → Int} (hf : Fits L v)
    (hd : ∀ g ∈ F.loads.map (·.fld), inDest g (v g)) (pre post : List Nat) (x : Vals) :
    ∃ y, F.decode (pre ++ encode L v ++ post) pre.length x = .ok (F.post y) ∧ (∀ g ∈ F.loads.map (·.fld), y g = v g) := by
  obtain ⟨y, e, sp⟩ := loadAll_layout hf hw pre post F.loads hl x
  refine ⟨y, by unfold Fmt.decode; rw [e]; rfl, ?_⟩
  intro g hg
  rw [sp g, if_pos hg, store_id g _ (hd g hg)]

end Verif.Reader
