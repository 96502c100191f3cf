import Verif.Algo.Random
import Verif.Proof.PQCache
/-!
# Helper proofs for the random eviction algorithms
-/

namespace Verif.Rand
open Verif Spec

/-- the objects drawn by the next `n` calls of `randObj` -/
def draws (s : State) (n : Nat) : List (Obj Int) :=
  (List.range n).filterMap (fun i => s.base.tbl[s.picks.getD i 0 % s.base.tbl.length]?)

theorem randObj_spec {s : State} (hne : s.base.tbl ≠ []) :
    ∃ o, randObj s = .ok (o, { s with picks := s.picks.tail }) ∧ s.base.tbl[s.picks.headD 0 % s.base.tbl.length]? = some o := by
  have hl : s.base.tbl.length ≠ 0 := by simpa using hne
  have := Nat.mod_lt (s.picks.headD 0) (Nat.pos_of_ne_zero hl)
  exact ⟨_, by unfold randObj; rw [dif_neg hl], List.getElem?_eq_getElem this⟩

theorem getD_tail (l : List Nat) (i : Nat) : l.tail.getD i 0 = l.getD (i + 1) 0 := by cases l <;> simp

theorem randObjs_spec : ∀ (n : Nat) {s : State}, s.base.tbl ≠ [] → randObjs n s = .ok (draws s n, { s with picks := s.picks.drop n }) ∧ (draws s n).length = n
  | 0, s, _ => ⟨rfl, rfl⟩
  | n + 1, s, hne => by
    obtain ⟨o, h1, h2⟩ := randObj_spec hne
    obtain ⟨h3, h4⟩ := randObjs_spec n (s := { s with picks := s.picks.tail }) hne
    have hd : draws s (n + 1) = o :: draws { s with picks := s.picks.tail } n := by
      unfold draws
      rw [List.range_succ_eq_map, List.filterMap_cons]
      have : s.picks.getD 0 0 = s.picks.headD 0 := by cases s.picks <;> rfl
      rw [this, h2]
      simp only [List.filterMap_map, List.cons.injEq, true_and]
      apply List.filterMap_congr
      intro i _
      simp only [Function.comp, getD_tail]
    refine ⟨?_, by rw [hd, List.length_cons, h4]⟩
    simp only [randObjs, h1, Res.bind_ok, h3, hd]
    congr 2
    simp

theorem draws_mem {s : State} {n : Nat} {o : Obj Int} (h : o ∈ draws s n) : o ∈ s.base.tbl := by
  simp only [draws, List.mem_filterMap] at h
  obtain ⟨i, _, h⟩ := h
  exact List.mem_of_getElem? h

theorem oldest_mem {l : List (Obj Int)} {o} (h : o ∈ oldest l) : o ∈ l ∧ ∀ x ∈ l, o.mt ≤ x.mt := by
  simp only [oldest, List.mem_filter, List.all_eq_true, decide_eq_true_eq] at h
  exact h

theorem oldest_ne {l : List (Obj Int)} (h : l ≠ []) : oldest l ≠ [] := by
  have : ∃ o ∈ l, ∀ x ∈ l, o.mt ≤ x.mt := by
    induction l with
    | nil => exact absurd rfl h
    | cons a l ih =>
      by_cases hl : l = []
      · subst hl; exact ⟨a, by simp, by simp⟩
      · obtain ⟨o, ho, hm⟩ := ih hl
        by_cases hc : a.mt ≤ o.mt
        · refine ⟨a, by simp, fun x hx => ?_⟩
          rcases List.mem_cons.1 hx with rfl | hx
          · exact le_refl _
          · exact hc.trans (hm x hx)
        · refine ⟨o, by simp [ho], fun x hx => ?_⟩
          rcases List.mem_cons.1 hx with rfl | hx
          · omega
          · exact hm x hx
  obtain ⟨o, ho, hm⟩ := this
  intro he
  have : o ∈ oldest l := by
    simp only [oldest, List.mem_filter, List.all_eq_true, decide_eq_true_eq]; exact ⟨ho, hm⟩
  rw [he] at this; simp at this

theorem qsortFirst_spec {l : List (Obj Int)} (h : l ≠ []) (pick : Nat) : ∃ o, qsortFirst l pick = .ok o ∧ o ∈ l ∧ ∀ x ∈ l, o.mt ≤ x.mt := by
  have hne : (oldest l).length ≠ 0 := by simpa using oldest_ne h
  have hlt := Nat.mod_lt pick (Nat.pos_of_ne_zero hne)
  unfold qsortFirst
  rw [List.getElem?_eq_getElem hlt]
  exact ⟨_, rfl, oldest_mem (List.getElem_mem hlt)⟩

/-- what `evict` does: remove one of the next `n` objects drawn, of those with the smallest time if `old` -/
structure Evicts (evict : State → Res State) (n : Nat) (old : Bool) : Prop where
  ok : ∀ {s : State} {cs md}, BInv cs md s.base → s.base.tbl ≠ [] → ∃ s' o, evict s = .ok s' ∧ s.base.removeObjBase o.id = .ok s'.base ∧
    o ∈ draws s n ∧ (old = true → ∀ x ∈ draws s n, o.mt ≤ x.mt)

theorem removeMem {cs md : Nat} {b : Base Int} (h : BInv cs md b) {o : Obj Int} (ho : o ∈ b.tbl) : ∃ b', b.removeObjBase o.id = .ok b' := by
  obtain ⟨b', h1, _⟩ := h.remove (lookup_of_mem h.inv.nodup ho)
  exact ⟨b', h1⟩

theorem draws_one {s : State} {o} (h : s.base.tbl[s.picks.headD 0 % s.base.tbl.length]? = some o) : draws s 1 = [o] := by
  have : s.picks.getD 0 0 = s.picks.headD 0 := by cases s.picks <;> rfl
  simp only [draws, List.range_one, List.filterMap_cons, List.filterMap_nil, this, h]

theorem draws_succ (s : State) (n : Nat) {o} (h : s.base.tbl[s.picks.headD 0 % s.base.tbl.length]? = some o) :
    draws s (n + 1) = o :: draws { s with picks := s.picks.tail } n := by
  unfold draws
  rw [List.range_succ_eq_map, List.filterMap_cons]
  have : s.picks.getD 0 0 = s.picks.headD 0 := by cases s.picks <;> rfl
  rw [this, h]
  simp only [List.filterMap_map, List.cons.injEq, true_and]
  apply List.filterMap_congr
  intro i _
  simp only [Function.comp, getD_tail]

theorem evicts1 : Evicts evict1 1 false where
  ok := fun {s cs md} h hne => by
    obtain ⟨o, h1, h2⟩ := randObj_spec hne
    obtain ⟨b', h3⟩ := removeMem h (List.mem_of_getElem? h2)
    refine ⟨{ s with base := b', picks := s.picks.tail }, o, ?_, h3, by rw [draws_one h2]; simp, by simp⟩
    have h3' : s.base.evictBase o.id = .ok b' := h3
    simp only [evict1, h1, Res.bind_ok, h3']

theorem evicts2 : Evicts evict2 2 true where
  ok := fun {s cs md} h hne => by
    obtain ⟨o, h1, h2⟩ := randObj_spec hne
    obtain ⟨o', h1', h2'⟩ := randObj_spec (s := { s with picks := s.picks.tail }) hne
    have hd : draws s 2 = [o, o'] := by rw [draws_succ s 1 h2, draws_one h2']
    rw [hd]
    by_cases hc : o.mt < o'.mt
    · obtain ⟨b', h3⟩ := removeMem h (List.mem_of_getElem? h2)
      refine ⟨{ s with base := b', picks := s.picks.tail.tail }, o, ?_, h3, by simp, fun _ x hx => ?_⟩
      · have h3' : s.base.evictBase o.id = .ok b' := h3
        simp only [evict2, h1, Res.bind_ok, h1', hc, if_true, h3']
      · simp at hx; rcases hx with rfl | rfl <;> omega
    · obtain ⟨b', h3⟩ := removeMem h (List.mem_of_getElem? h2')
      refine ⟨{ s with base := b', picks := s.picks.tail.tail }, o', ?_, h3, by simp, fun _ x hx => ?_⟩
      · have h3' : s.base.evictBase o'.id = .ok b' := h3
        simp only [evict2, h1, Res.bind_ok, h1', hc, if_false, h3']
      · simp at hx; rcases hx with rfl | rfl <;> omega

theorem evictsLRU : Evicts evictLRU 64 true where
  ok := fun {s cs md} h hne => by
    obtain ⟨h1, h2⟩ := randObjs_spec 64 hne
    have hne' : draws s 64 ≠ [] := by intro e; rw [e] at h2; simp at h2
    obtain ⟨o, h3, h4, h5⟩ := qsortFirst_spec hne' ((s.picks.drop 64).headD 0)
    obtain ⟨b', h6⟩ := removeMem h (draws_mem h4)
    refine ⟨{ s with base := b', picks := (s.picks.drop 64).tail }, o, ?_, h6, h4, fun _ => h5⟩
    have h6' : s.base.evictBase o.id = .ok b' := h6
    unfold evictLRU
    rw [h1]
    simp only [Res.bind_ok, h3, h6']

/-- what a hit does to the object -/
def hitObj (onHit : Nat → Int → Int) (n : Nat) (r : Req) (o : Obj Int) : Obj Int := { touch r o with mt := onHit n o.mt }

/-- the two ways `find` and `insert` treat the access time -/
structure Handles (find : State → Req → Bool → Res (Bool × State)) (insert : State → Req → Res State) (onHit : Nat → Int → Int) (onIns : Nat → Int) :
    Prop where
  quiet : ∀ s r, find s r false = .ok ((s.base.lookup r.id).isSome, s)
  miss : ∀ s r, s.base.lookup r.id = none → find s r true = .ok (false, s)
  hit : ∀ s r o, s.base.lookup r.id = some o →
    find s r true = .ok (true, { s with base := s.base.modify r.id (hitObj onHit s.base.nReq r) })
  ins : ∀ s r, s.base.lookup r.id = none → insert s r = .ok { s with base := s.base.insertBase (onIns s.base.nReq) r }

theorem modify_modify {μ : Type} (b : Base μ) (id : ObjId) (f g : Obj μ → Obj μ) (hf : ∀ o, (f o).id = o.id) :
    (b.modify id f).modify id g = b.modify id (fun o => g (f o)) := by
  simp only [Base.modify, List.map_map]
  congr 1
  apply List.map_congr_left
  intro o _
  simp only [Function.comp]
  by_cases h : o.id = id
  · simp [h, hf]
  · simp [h]

theorem handlesPlain : Handles findPlain insertPlain (fun _ t => t) (fun _ => 0) where
  quiet := fun s r => by simp only [findPlain, findBase_false]
  miss := fun s r h => by simp [findPlain, findBase_miss h]
  hit := fun s r o h => by
    simp only [findPlain, findBase_hit h, Option.isSome_some]
    rfl
  ins := fun s r _ => rfl

theorem handlesStamp : Handles findStamp insertStamp (fun n _ => n) (fun n => n) where
  quiet := fun s r => by
    simp only [findStamp, findBase_false]
    cases h : s.base.lookup r.id <;> simp
  miss := fun s r h => by simp [findStamp, findBase_miss h]
  hit := fun s r o h => by
    have hid : o.id = r.id := (lookup_some_mem h).2
    simp only [findStamp, findBase_hit h, if_true]
    have : (touch r o).id = r.id := hid
    rw [this, modify_modify s.base r.id (touch r) (fun o => { o with mt := (s.base.nReq : Int) }) (fun _ => rfl)]
    rfl
  ins := fun s r h => by
    simp only [insertStamp]
    rw [modify_insert 0 (s.base.nReq : Int) h]

def Inv (cs md : Nat) (s : State) : Prop := BInv cs md s.base

theorem inv_init (cs md : Nat) (adm : Adm) (picks : List Nat) : Inv cs md (init cs md adm picks) := ⟨baseInv_init _ _ _, rfl, rfl⟩

theorem remove_hit {cs md} {s : State} {id : ObjId} {o} (h : Inv cs md s) (ho : s.base.lookup id = some o) :
    ∃ s', remove s id = .ok (true, s') ∧ Inv cs md s' ∧ s'.base.tbl = s.base.tbl.eraseP (fun o => o.id == id) ∧ s'.base.nReq = s.base.nReq ∧
      s.base.cached.Perm ((o.id, o.size) :: s'.base.cached) := by
  have hid := (lookup_some_mem ho).2
  obtain ⟨b', h1, h2, h3, _, h5, _, h7⟩ := BInv.remove h ho
  rw [← hid] at h1
  exact ⟨{ s with base := b' }, by simp only [remove, ho, h1, Res.bind_ok], h2, h3, h7, h5⟩

theorem spec (cs md : Nat) {find insert evict onHit onIns n old} (H : Handles find insert onHit onIns) (E : Evicts evict n old) :
    SBSpec (algoWith find insert evict) (fun s => s.base) (fun s b => { s with base := b }) (Inv cs md) cs md where
  base_set := fun _ _ => rfl
  occ := fun _ => rfl
  nObj := fun _ => rfl
  csz := fun _ => rfl
  mdz := fun _ => rfl
  bumpEq := fun _ => rfl
  canEq := fun _ _ => rfl
  fuel := fun _ => Nat.le_refl _
  inv := fun h => h
  frame := fun _ _ h => ⟨⟨h.inv.nodup, h.inv.occ_eq, h.inv.nObj_eq, h.inv.cap, h.inv.small⟩, h.cs, h.md⟩
  findF := fun {s} r _ => H.quiet s r
  findHit := fun {s} r o h ho => by
    refine ⟨_, H.hit s r o ho, BInv.modify h _ _ (fun _ => rfl) (fun _ => rfl), ?_⟩
    rw [Base.cached_modify s.base r.id (hitObj onHit s.base.nReq r) (fun _ => rfl) (fun _ => rfl)]
  findMiss := fun {s} r _ hn => H.miss s r hn
  evict := fun {s} _ h hne _ => by
    obtain ⟨s', o, h1, h2, h3, _⟩ := E.ok h hne
    obtain ⟨b', g1, g2, _, _, g5, _⟩ := BInv.remove h (lookup_of_mem h.inv.nodup (draws_mem h3))
    rw [g1] at h2
    have hb : b' = s'.base := by cases h2; rfl
    subst hb
    exact ⟨s', (o.id, o.size), h1, g2, g5⟩
  insert := fun {s} r h hn hroom hok => by
    refine ⟨_, H.ins s r hn, BInv.insert h _ r (lookup_none_iff'.1 hn) hroom hok, ?_⟩
    rw [cached_insertBase]
  removeMiss := fun _ {s} id _ hn => by simp [algoWith, remove, hn]
  removeHit := fun _ {s} id o h ho => by
    obtain ⟨s', h1, h2, _, _, h5⟩ := remove_hit h ho
    exact ⟨s', h1, h2, h5⟩

/-- the whole state but the request counter and the admission policy -/
structure Core where
  tbl : List (Obj Int)
  occ : Int
  nObj : Int
  picks : List Nat

def core (s : State) : Core := ⟨s.base.tbl, s.base.occ, s.base.nObj, s.picks⟩

theorem strong (cs md : Nat) {find insert evict onHit onIns n old} (H : Handles find insert onHit onIns) (E : Evicts evict n old) :
    SBStrong (algoWith find insert evict) (fun s => s.base) (Inv cs md) cs md core := (spec cs md H E).strong core (fun _ _ _ => rfl)

def timeOf (s : State) (id : ObjId) : Option Int := (s.base.lookup id).map (·.mt)

theorem lookup_erase {μ : Type} {b b' : Base μ} {id i : ObjId} {o : Obj μ} (hn : (b.tbl.map (·.id)).Nodup)
    (he : b'.tbl = b.tbl.eraseP (fun o => o.id == id)) (h : b'.lookup i = some o) : b.lookup i = some o := by
  obtain ⟨h1, h2⟩ := lookup_some_mem h
  rw [he] at h1
  have := lookup_of_mem hn (List.mem_of_mem_eraseP h1)
  rw [h2] at this; exact this

theorem tagged (cs md : Nat) {find insert evict onHit onIns n old} (H : Handles find insert onHit onIns) (E : Evicts evict n old) :
    Tagged (algoWith find insert evict) (fun s => s.base) (fun s b => { s with base := b }) (Inv cs md) cs md {} (SizeOk md) timeOf
      (fun n _ => onHit n) (fun n _ => onIns n) where
  dom := fun id _ h => by simp [timeOf, h]
  ex := fun id o _ h => ⟨o.mt, by simp [timeOf, h]⟩
  frame := fun _ _ _ _ => rfl
  hit := fun {s s'} r o h ho hf => by
    have hf' : find s r true = .ok (true, s') := hf
    rw [H.hit s r o ho] at hf'
    cases hf'
    refine ⟨rfl, fun id => ?_⟩
    simp only [timeOf]
    by_cases e : id = r.id
    · subst e
      rw [lookup_modify_self (f := hitObj onHit s.base.nReq r) (fun _ => rfl) ho]
      simp [ho, hitObj]
    · rw [lookup_modify_ne (f := hitObj onHit s.base.nReq r) (fun _ => rfl) e]; simp [e]
  evict := fun {s s'} _ h hne he => by
    obtain ⟨s'', o, h1, h2, h3, _⟩ := E.ok h hne
    have he' : evict s = .ok s' := he
    rw [h1] at he'; cases he'
    obtain ⟨b', g1, g2, g3, _, g5, _⟩ := BInv.remove h (lookup_of_mem h.inv.nodup (draws_mem h3))
    refine ⟨PQCache.removeObjBase_nReq h2, fun id k hk => ?_⟩
    rw [g1] at h2
    have hb : b' = s'.base := by cases h2; rfl
    subst hb
    simp only [timeOf, Option.map_eq_some_iff] at hk ⊢
    obtain ⟨x, hx, hk⟩ := hk
    exact ⟨x, lookup_erase h.inv.nodup g3 hx, hk⟩
  insert := fun {s s'} r h hn _ _ hi => by
    have hi' : insert s r = .ok s' := hi
    rw [H.ins s r hn] at hi'; cases hi'
    refine ⟨rfl, fun id => ?_⟩
    simp only [timeOf, Base.lookup, Base.insertBase, Obj.ofReq, List.find?_cons]
    by_cases e : id = r.id
    · subst e; simp
    · have : (r.id == id) = false := by simpa using fun h => e h.symm
      simp [this, e]
  remove := fun {s s'} id b h hr => by
    have hr' : remove s id = .ok (b, s') := hr
    cases hl : s.base.lookup id with
    | none => simp only [remove, hl] at hr'; cases hr'; exact ⟨rfl, fun _ _ h => h⟩
    | some o =>
      obtain ⟨s'', h1, _, h3, h4, _⟩ := remove_hit h hl
      rw [h1] at hr'; cases hr'
      refine ⟨h4, fun i k hk => ?_⟩
      simp only [timeOf, Option.map_eq_some_iff] at hk ⊢
      obtain ⟨x, hx, hk⟩ := hk
      exact ⟨x, lookup_erase h.inv.nodup h3 hx, hk⟩

end Verif.Rand

namespace Verif
open Spec Rand

theorem Random.spec (cs md : Nat) : SBSpec Random.algo (fun s => s.base) (fun s b => { s with base := b }) (Inv cs md) cs md := Rand.spec cs md handlesPlain evicts1
theorem Random.strong (cs md : Nat) : SBStrong Random.algo (fun s => s.base) (Inv cs md) cs md core := Rand.strong cs md handlesPlain evicts1
theorem RandomTwo.spec (cs md : Nat) : SBSpec RandomTwo.algo (fun s => s.base) (fun s b => { s with base := b }) (Inv cs md) cs md := Rand.spec cs md handlesStamp evicts2
theorem RandomTwo.strong (cs md : Nat) : SBStrong RandomTwo.algo (fun s => s.base) (Inv cs md) cs md core := Rand.strong cs md handlesStamp evicts2
theorem RandomLRU.spec (cs md : Nat) : SBSpec RandomLRU.algo (fun s => s.base) (fun s b => { s with base := b }) (Inv cs md) cs md := Rand.spec cs md handlesStamp evictsLRU
theorem RandomLRU.strong (cs md : Nat) : SBStrong RandomLRU.algo (fun s => s.base) (Inv cs md) cs md core := Rand.strong cs md handlesStamp evictsLRU

/-- The positions `picks` select in the list of cached objects. -/
def Rand.sampled (cached : Contents) (picks : List Nat) (k : Nat) : Contents :=
  (List.range k).filterMap (fun i => cached[picks.getD i 0 % cached.length]?)

theorem Rand.draws_sampled (s : Rand.State) (k : Nat) : (draws s k).map (fun o => (o.id, o.size)) = sampled s.base.cached s.picks k := by
  simp only [draws, sampled, List.map_filterMap, Base.cached, List.getElem?_map, List.length_map]

theorem Rand.evictsOldest (cs md : Nat) {evict n} (E : Evicts evict n true) (adm : Adm) (picks : List Nat)
    (ops : List Op) (out : List Bool) (s : Rand.State) (ho : ∀ op ∈ ops, Calls {} (SizeOk md) op)
    (h : Reaches (algoWith findStamp insertStamp evict) (Rand.init cs md adm picks) ops out s) (hne : s.base.cached ≠ []) :
    ∃ v s' nv rv, evict s = .ok s' ∧ s.base.cached.Perm (v :: s'.base.cached) ∧ v ∈ sampled s.base.cached s.picks n ∧
      (sampled s.base.cached s.picks n).length = n ∧ latestAt (ops.zip out) v.1 = some (nv, rv) ∧
      ∀ x ∈ sampled s.base.cached s.picks n, ∃ nx rx, latestAt (ops.zip out) x.1 = some (nx, rx) ∧ nv ≤ nx := by
  have S := Rand.spec cs md handlesStamp E
  have C := Rand.strong cs md handlesStamp E
  have hi := C.reach (inv_init cs md adm picks) ho h
  have hh := (tagged cs md handlesStamp E).reach S C (inv_init cs md adm picks) rfl rfl ops out s ho h
  have hne' : s.base.tbl ≠ [] := by intro e; simp [Base.cached, e] at hne
  obtain ⟨s', o, h1, h2, h3, h4⟩ := E.ok hi hne'
  obtain ⟨b', g1, g2, _, _, g5, _⟩ := BInv.remove hi (lookup_of_mem hi.inv.nodup (draws_mem h3))
  rw [g1] at h2
  have hb : b' = s'.base := by cases h2; rfl
  subst hb
  have time : ∀ o ∈ draws s n, ∃ k r, latestAt (ops.zip out) o.id = some (k, r) ∧ (k : Int) = o.mt := by
    intro o ho
    have : timeOf s o.id = some o.mt := by simp [timeOf, lookup_of_mem hi.inv.nodup (draws_mem ho)]
    obtain ⟨k, r, e1, e2⟩ := (histTag_latest (f := fun n _ => (n : Int)) _ _).2 _ ((hh _).2 _ this)
    exact ⟨k, r, e1, e2⟩
  obtain ⟨nv, rv, e1, e2⟩ := time o h3
  refine ⟨(o.id, o.size), s', nv, rv, h1, g5, ?_, ?_, e1, ?_⟩
  · rw [← draws_sampled]; exact List.mem_map_of_mem h3
  · rw [← draws_sampled, List.length_map, (randObjs_spec n hne').2]
  · intro x hx
    rw [← draws_sampled] at hx
    obtain ⟨o', ho', rfl⟩ := List.mem_map.1 hx
    obtain ⟨nx, rx, e3, e4⟩ := time o' ho'
    refine ⟨nx, rx, e3, ?_⟩
    have := h4 rfl o' ho'
    omega

end Verif
