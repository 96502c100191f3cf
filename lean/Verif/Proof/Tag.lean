import Verif.Proof.SingleBase
import Verif.Spec.History
/-!
# Data attached to cached objects, over whole call sequences

If hits, insertions and evictions treat the datum `tag` of each object as stated in `Tagged`, then after any calls the datum is a
function of the client's history.  The datum may depend on the number of `get`s so far (`cache->n_req`).
-/

namespace Verif
open Spec
variable {σ μ τ : Type}

structure Tagged (A : Algo σ) (base : σ → Base μ) (setBase : σ → Base μ → σ) (Inv : σ → Prop) (cs md : Nat) (p : Perms) (ok : Req → Prop)
    (tag : σ → ObjId → Option τ) (onHit : Nat → Req → τ → τ) (onIns : Nat → Req → τ) : Prop where
  dom : ∀ {s} (id), Inv s → (base s).lookup id = none → tag s id = none
  ex : ∀ {s} (id o), Inv s → (base s).lookup id = some o → ∃ k, tag s id = some k
  frame : ∀ s n a id, tag (setBase s { base s with nReq := n, adm := a }) id = tag s id
  hit : ∀ {s s'} (r o), Inv s → (base s).lookup r.id = some o → A.find s r true = .ok (true, s') →
    (base s').nReq = (base s).nReq ∧ ∀ id, tag s' id = if id = r.id then (tag s id).map (onHit (base s).nReq r) else tag s id
  evict : ∀ {s s'} (r), Inv s → (base s).tbl ≠ [] → A.evict s r = .ok s' →
    (base s').nReq = (base s).nReq ∧ ∀ id k, tag s' id = some k → tag s id = some k
  insert : ∀ {s s'} (r), Inv s → (base s).lookup r.id = none → (base s).occ + r.size + md ≤ cs → ok r → A.insert s r = .ok s' →
    (base s').nReq = (base s).nReq ∧ ∀ id, tag s' id = if id = r.id then some (onIns (base s).nReq r) else tag s id
  remove : ∀ {s s'} (id) (b), Inv s → A.remove s id = .ok (b, s') →
    (base s').nReq = (base s).nReq ∧ ∀ i k, tag s' i = some k → tag s i = some k

/-- the datum after one call, from the datum before -/
def updTag (onHit : Req → τ → τ) (onIns : Req → τ) (op : Op) (b : Bool) (id : ObjId) (old : Option τ) : Option τ :=
  match op, b with
  | .get r, true => if r.id = id then old.map (onHit r) else old
  | .get r, false => if r.id = id then some (onIns r) else old
  | .find r true, true => if r.id = id then old.map (onHit r) else old
  | .insert r, true => if r.id = id then some (onIns r) else old
  | _, _ => old

/-- the number of `get`s so far, after `op` -/
def tick (n : Nat) : Op → Nat
  | .get _ => n + 1
  | _ => n

/-- the number of `get`s in a history, and the datum, as a function of the history -/
def histTag (onHit : Nat → Req → τ → τ) (onIns : Nat → Req → τ) (h : List (Op × Bool)) (id : ObjId) : Nat × Option τ :=
  h.foldl (fun old e => (tick old.1 e.1, updTag (onHit (tick old.1 e.1)) (onIns (tick old.1 e.1)) e.1 e.2 id old.2)) (0, none)

section
variable {A : Algo σ} {base : σ → Base μ} {setBase : σ → Base μ → σ} {Inv : σ → Prop} {cs md : Nat} {p : Perms} {ok : Req → Prop}
  {tag : σ → ObjId → Option τ} {onHit : Nat → Req → τ → τ} {onIns : Nat → Req → τ} {κ : Type} {core : σ → κ}
  {Ready : σ → Req → Prop} {measure : σ → Nat} {admits : σ → Req → Bool}

theorem Tagged.loopG (T : Tagged A base setBase Inv cs md p ok tag onHit onIns) (S : Plain A base setBase Inv cs md)
    (C : Strong A (fun s => (base s).cached) Inv Ready measure cs md p ok admits core) (r : Req) (hok : ok r) (hR : ∀ s, Ready s r → r.size + md ≤ cs) : ∀ n s s', Inv s → Ready s r → r.id ∉ (base s).cached.ids →
      A.evictLoop r n s = .ok s' →
      Inv s' ∧ A.mustEvict s' r = false ∧ r.id ∉ (base s').cached.ids ∧ (base s').nReq = (base s).nReq ∧
      ∀ id k, tag s' id = some k → tag s id = some k := by
  intro n
  induction n with
  | zero =>
    intro s s' hi hr hn he
    unfold Algo.evictLoop at he
    cases hme : A.mustEvict s r with
    | true => simp [hme] at he
    | false => simp [hme] at he; subst he; exact ⟨hi, hme, hn, rfl, fun _ _ h => h⟩
  | succ n ih =>
    intro s s' hi hr hn he
    unfold Algo.evictLoop at he
    cases hme : A.mustEvict s r with
    | false => simp [hme] at he; subst he; exact ⟨hi, hme, hn, rfl, fun _ _ h => h⟩
    | true =>
      simp only [hme, if_true] at he
      obtain ⟨s1, he1, hi1, hr1, hs1, _⟩ := C.evictLoop r hi hok hr hn hme
      have hsz := hR s hr
      rw [he1, Res.bind_ok] at he
      have hne : (base s).tbl ≠ [] := by
        intro h0
        simp only [Algo.mustEvict, decide_eq_true_eq] at hme
        rw [S.occ, S.csz, S.mdz, (S.inv hi).inv.occ_eq, (S.inv hi).cs, (S.inv hi).md] at hme
        simp only [Base.cached, h0, List.map_nil, charge] at hme
        omega
      obtain ⟨a, b, c, d, e⟩ := ih s1 s' hi1 hr1 (notMem_ids_of_subperm hs1 hn) he
      obtain ⟨n1, n2⟩ := T.evict r hi hne he1
      exact ⟨a, b, c, d.trans n1, fun id k h => n2 id k (e id k h)⟩

theorem Tagged.getG (T : Tagged A base setBase Inv cs md p ok tag onHit onIns) (S : Plain A base setBase Inv cs md)
    (C : Strong A (fun s => (base s).cached) Inv Ready measure cs md p ok admits core) (hR : ∀ s r, Ready s r → r.size + md ≤ cs) {s s' : σ} {b : Bool} (r : Req) (hok : ok r) (hi : Inv s) (hg : A.get s r = .ok (b, s')) :
    (base s').nReq = (base s).nReq + 1 ∧
    ∀ id k, tag s' id = some k → updTag (onHit ((base s).nReq + 1)) (onIns ((base s).nReq + 1)) (.get r) b id (tag s id) = some k := by
  obtain ⟨hb, hbc⟩ := C.bump hi
  have hbt : ∀ id, tag (A.bump s) id = tag s id := by
    intro id
    rw [S.bumpEq]
    exact T.frame s ((base s).nReq + 1) (base s).adm id
  have hbn : (base (A.bump s)).nReq = (base s).nReq + 1 := by rw [S.bumpEq, S.base_set]; rfl
  by_cases hin : r.id ∈ (base s).cached.ids
  · obtain ⟨s1, hf, hi1, hs⟩ := C.findHit r hb (by rw [hbc]; exact hin) (Fresh.bump hok hi)
    rw [get_hit hf] at hg
    cases hg
    have : ((base (A.bump s)).lookup r.id).isSome = true := by rw [lookup_isSome_iff]; simpa [hbc] using hin
    obtain ⟨o, ho⟩ := Option.isSome_iff_exists.1 this
    obtain ⟨n1, n2⟩ := T.hit r o hb ho hf
    refine ⟨n1.trans hbn, fun id k hk => ?_⟩
    rw [n2 id, hbt, hbn] at hk
    simp only [updTag]
    by_cases e : id = r.id
    · subst e; simpa using hk
    · have e' : r.id ≠ id := fun h => e h.symm
      simp only [e, e', if_false] at hk ⊢; exact hk
  · have hin' : r.id ∉ (base (A.bump s)).cached.ids := by rw [hbc]; exact hin
    have hf := C.missQuiet r hb hin'
    have hl := lookup_none_iff'.2 hin'
    obtain ⟨s1, hf', hi1, hp1, hi2, hp2, hrd⟩ := C.findMiss r hb hin' (Fresh.bump hok hi)
    rw [hf] at hf'; cases hf'
    have hct : ∀ id, tag (A.canInsert (A.bump s) r).2 id = tag s id := by
      intro id
      rw [S.canEq, canInsertDefault_eq]
      exact (T.frame (A.bump s) (base (A.bump s)).nReq ((base (A.bump s)).adm.admit r).2 id).trans (hbt id)
    have hno : tag s r.id = none := by rw [← hbt]; exact T.dom r.id hb hl
    have hcn : (base (A.canInsert (A.bump s) r).2).nReq = (base s).nReq + 1 := by
      rw [S.canEq, canInsertDefault_eq, S.base_set]; exact hbn
    rcases hcc : A.canInsert (A.bump s) r with ⟨c, s2⟩
    simp only [hcc] at hi2 hp2 hrd hct hcn
    cases c with
    | false =>
      rw [get_reject hf hcc] at hg
      cases hg
      refine ⟨hcn, fun id k hk => ?_⟩
      rw [hct] at hk
      simp only [updTag]
      by_cases e : r.id = id
      · subst e; rw [hno] at hk; cases hk
      · simp [e, hk]
    | true =>
      have hn2 : r.id ∉ (base s2).cached.ids := notMem_ids_of_subperm hp2.subperm (by rw [hbc]; exact hin)
      have hr := hrd rfl hok
      obtain ⟨s3, h1, h2, h3, h4, h5⟩ := C.toContract.loop r hok (A.fuel s2) _ hi2 hr hn2 (C.fuel hi2)
      obtain ⟨g1, g2, g3, gn, g4⟩ := T.loopG S C r hok (fun s => hR s r) (A.fuel s2) s2 s3 hi2 hr hn2 h1
      obtain ⟨s4, k1, k2, k3⟩ := C.insert r h2 hok h3 g3 h5
      rw [get_accept hf hcc h1 k1] at hg
      cases hg
      have hroom : (base s3).occ + r.size + md ≤ cs := by
        simp only [Algo.mustEvict, decide_eq_false_iff_not, Int.not_lt] at g2
        rw [S.occ, S.csz, S.mdz, (S.inv h2).cs, (S.inv h2).md] at g2
        omega
      obtain ⟨n1, n2⟩ := T.insert r h2 (lookup_none_iff'.2 g3) hroom hok k1
      refine ⟨n1.trans (gn.trans hcn), fun id k hk => ?_⟩
      rw [n2 id, gn.trans hcn] at hk
      simp only [updTag]
      by_cases e : id = r.id
      · subst e; simpa using hk
      · have e' : r.id ≠ id := fun h => e h.symm
        simp only [e, e', if_false] at hk ⊢
        rw [← hct]; exact g4 id k hk

theorem Tagged.stepG (T : Tagged A base setBase Inv cs md p ok tag onHit onIns) (S : Plain A base setBase Inv cs md)
    (C : Strong A (fun s => (base s).cached) Inv Ready measure cs md p ok admits core) (hR : ∀ s r, Ready s r → r.size + md ≤ cs) {s s' : σ} {b : Bool} (op : Op) (hop : Calls p ok op) (hi : Inv s) (hg : A.step s op = .ok (b, s')) :
    (base s').nReq = tick (base s).nReq op ∧
    ∀ id k, tag s' id = some k →
      updTag (onHit (tick (base s).nReq op)) (onIns (tick (base s).nReq op)) op b id (tag s id) = some k := by
  cases op with
  | get r => exact T.getG S C hR r hop hi hg
  | find r u =>
    cases u with
    | false =>
      simp only [Algo.step] at hg
      rw [C.findF (Or.inl hop) r hi] at hg
      cases hg
      exact ⟨rfl, fun id k hk => by simpa [updTag] using hk⟩
    | true =>
      simp only [Algo.step] at hg
      by_cases hin : r.id ∈ (base s).cached.ids
      · obtain ⟨s1, hf, hi1, hs⟩ := C.findHit r hi hin (Or.inl hop)
        rw [hf] at hg
        cases hg
        have : ((base s).lookup r.id).isSome = true := by rw [lookup_isSome_iff]; simpa using hin
        obtain ⟨o, ho⟩ := Option.isSome_iff_exists.1 this
        obtain ⟨n1, n2⟩ := T.hit r o hi ho hf
        refine ⟨n1, fun id k hk => ?_⟩
        rw [n2 id] at hk
        simp only [updTag]
        by_cases e : id = r.id
        · subst e; simpa [tick] using hk
        · have e' : r.id ≠ id := fun h => e h.symm
          simp only [e, e', if_false] at hk ⊢; exact hk
      · rw [C.missQuiet r hi hin] at hg
        cases hg
        exact ⟨rfl, fun id k hk => by simpa [updTag] using hk⟩
  | remove i =>
    simp only [Algo.step] at hg
    obtain ⟨n1, n2⟩ := T.remove i b hi hg
    exact ⟨n1, fun id k hk => by simpa [updTag] using n2 id k hk⟩
  | evict r =>
    simp only [Algo.step] at hg
    split at hg
    · rename_i hpos
      rw [S.nObj, (S.inv hi).inv.nObj_eq] at hpos
      have hne : (base s).tbl ≠ [] := by
        intro e
        rw [e] at hpos
        simp at hpos
      rw [Res.bind_eq_ok] at hg
      obtain ⟨s1, h1, h2⟩ := hg
      cases h2
      obtain ⟨n1, n2⟩ := T.evict r hi hne h1
      exact ⟨n1, fun id k hk => by simpa [updTag] using n2 id k hk⟩
    · cases hg; exact ⟨rfl, fun id k hk => by simpa [updTag] using hk⟩
  | insert r =>
    simp only [Algo.step] at hg
    rw [C.findF (Or.inr hop.1) r hi, Res.bind_ok] at hg
    simp only at hg
    split at hg
    · rename_i hc
      rw [Res.bind_eq_ok] at hg
      obtain ⟨s1, h1, h2⟩ := hg
      cases h2
      have hn : r.id ∉ (base s).cached.ids := by simpa using hc.1
      have hroom : (base s).occ + r.size + md ≤ cs := by
        have g2 := hc.2
        simp only [Algo.mustEvict, decide_eq_false_iff_not, Int.not_lt] at g2
        rw [S.occ, S.csz, S.mdz, (S.inv hi).cs, (S.inv hi).md] at g2
        omega
      obtain ⟨n1, n2⟩ := T.insert r hi (lookup_none_iff'.2 hn) hroom hop.2 h1
      refine ⟨n1, fun id k hk => ?_⟩
      rw [n2 id] at hk
      simp only [updTag]
      by_cases e : id = r.id
      · subst e; simpa [tick] using hk
      · have e' : r.id ≠ id := fun h => e h.symm
        simp only [e, e', if_false] at hk ⊢; exact hk
    · cases hg; exact ⟨rfl, fun id k hk => by simpa [updTag] using hk⟩

theorem updTag_mono {onHit : Req → τ → τ} {onIns : Req → τ} (op : Op) (b : Bool) (id : ObjId) {t t' : Option τ} (h : ∀ k, t = some k → t' = some k) {k : τ}
    (hk : updTag onHit onIns op b id t = some k) : updTag onHit onIns op b id t' = some k := by
  have key : ∀ r : Req, (if r.id = id then t.map (onHit r) else t) = some k → (if r.id = id then t'.map (onHit r) else t') = some k := by
    intro r hr
    by_cases e : r.id = id
    · simp only [e, if_true, Option.map_eq_some_iff] at hr ⊢
      obtain ⟨a, h1, h2⟩ := hr
      exact ⟨a, h a h1, h2⟩
    · simp only [e, if_false] at hr ⊢; exact h _ hr
  have key2 : ∀ r : Req, (if r.id = id then some (onIns r) else t) = some k → (if r.id = id then some (onIns r) else t') = some k := by
    intro r hr
    by_cases e : r.id = id
    · simp only [e, if_true] at hr ⊢; exact hr
    · simp only [e, if_false] at hr ⊢; exact h _ hr
  cases op with
  | get r => cases b with
    | true => exact key r hk
    | false => exact key2 r hk
  | find r u => cases u with
    | false => exact h _ hk
    | true => cases b with
      | true => exact key r hk
      | false => exact h _ hk
  | insert r => cases b with
    | true => exact key2 r hk
    | false => exact h _ hk
  | remove i => exact h _ hk
  | evict r => exact h _ hk

theorem run_out_length (A : Algo σ) : ∀ (ops : List Op) (s : σ) (out : List Bool) (s' : σ), A.run s ops = .ok (out, s') → out.length = ops.length
  | [], s, out, s', h => by cases h; rfl
  | op :: ops, s, out, s', h => by
    simp only [Algo.run] at h
    rw [Res.bind_eq_ok] at h
    obtain ⟨⟨b, s1⟩, h1, h2⟩ := h
    simp only at h2
    rw [Res.bind_eq_ok] at h2
    obtain ⟨⟨bs, s2⟩, h3, h4⟩ := h2
    cases h4
    simp [run_out_length A ops s1 bs s2 h3]

/-- After any calls, the datum of every cached object is the one determined by the history. -/
theorem Tagged.reachG (T : Tagged A base setBase Inv cs md p ok tag onHit onIns) (S : Plain A base setBase Inv cs md)
    (C : Strong A (fun s => (base s).cached) Inv Ready measure cs md p ok admits core) (hR : ∀ s r, Ready s r → r.size + md ≤ cs) {s0 : σ} (h0 : Inv s0) (hempty : (base s0).tbl = [])
    (hn0 : (base s0).nReq = 0) :
    ∀ (ops : List Op) (out : List Bool) (s : σ), (∀ op ∈ ops, Calls p ok op) → Reaches A s0 ops out s →
      ∀ id, (histTag onHit onIns (ops.zip out) id).1 = (base s).nReq ∧
        ∀ k, tag s id = some k → (histTag onHit onIns (ops.zip out) id).2 = some k := by
  intro ops
  induction ops using List.reverseRecOn with
  | nil =>
    intro out s _ h id
    simp only [Reaches, Algo.run] at h
    cases h
    refine ⟨hn0.symm, fun k hk => ?_⟩
    rw [T.dom id h0 (by simp [Base.lookup, hempty])] at hk
    cases hk
  | append_singleton ops op ih =>
    intro out s ho h id
    have ho1 : ∀ o ∈ ops, Calls p ok o := fun o hm => ho o (by simp [hm])
    obtain ⟨out1, s1, hr1, hi1⟩ := C.run ops h0 ho1
    unfold Reaches at h
    rw [run_append, hr1, Res.bind_ok] at h
    simp only [Algo.run] at h
    obtain ⟨b, s2, h2, _⟩ := C.step op (ho op (by simp)) hi1
    rw [h2] at h
    simp only [Res.bind_ok] at h
    cases h
    have hl := run_out_length A ops s0 out1 s1 hr1
    rw [List.zip_append hl.symm, histTag, List.foldl_append]
    simp only [List.zip_cons_cons, List.zip_nil_right, List.foldl_cons, List.foldl_nil]
    obtain ⟨g1, g2⟩ := ih out1 s1 ho1 hr1 id
    obtain ⟨n1, n2⟩ := T.stepG S C hR op (ho op (by simp)) hi1 h2
    rw [histTag] at g1 g2
    rw [g1]
    refine ⟨n1.symm, fun k hk => updTag_mono op b id (fun k' hk' => g2 k' hk') (n2 id k hk)⟩

theorem Tagged.reach (T : Tagged A base setBase Inv cs md p ok tag onHit onIns) (S : SBSpec A base setBase Inv cs md p ok)
    (C : SBStrong A base Inv cs md core p ok) {s0 : σ} (h0 : Inv s0) (hempty : (base s0).tbl = [])
    (hn0 : (base s0).nReq = 0) :
    ∀ (ops : List Op) (out : List Bool) (s : σ), (∀ op ∈ ops, Calls p ok op) → Reaches A s0 ops out s →
      ∀ id, (histTag onHit onIns (ops.zip out) id).1 = (base s).nReq ∧
        ∀ k, tag s id = some k → (histTag onHit onIns (ops.zip out) id).2 = some k :=
  T.reachG S.plain C (fun _ _ h => h) h0 hempty hn0

/-- With "remember `f` of the time and the request" as the datum, the history determines the latest request presented. -/
theorem histTag_latest {f : Nat → Req → τ} : ∀ (h : List (Op × Bool)) (id : ObjId),
    (histTag (fun n r _ => f n r) f h id).1 = gets h ∧
    ∀ k, (histTag (fun n r _ => f n r) f h id).2 = some k → ∃ n r, latestAt h id = some (n, r) ∧ f n r = k := by
  intro h
  induction h using List.reverseRecOn with
  | nil => intro id; exact ⟨rfl, fun k hk => by cases hk⟩
  | append_singleton h e ih =>
    intro id
    obtain ⟨ih1, ih2⟩ := ih id
    obtain ⟨op, b⟩ := e
    have hg : gets (h ++ [(op, b)]) = tick (gets h) op := by
      rw [gets, List.countP_append]
      cases op <;> simp [gets, tick]
    rw [histTag, List.foldl_append]
    simp only [List.foldl_cons, List.foldl_nil]
    rw [histTag] at ih1 ih2
    rw [ih1, hg]
    refine ⟨rfl, fun k hk => ?_⟩
    generalize List.foldl _ _ h = acc at *
    have hL : latestAt (h ++ [(op, b)]) id =
        match presents op b with
        | none => latestAt h id
        | some r => if r.id = id then some (tick (gets h) op, r) else latestAt h id := by
      rw [latestAt, List.foldl_append]
      simp only [List.foldl_cons, List.foldl_nil]
      have h1 : ∀ (h : List (Op × Bool)) (a : Nat × Option (Nat × Req)), (h.foldl (latestStep id) a).1 = a.1 + gets h := by
        intro h
        induction h with
        | nil => intro a; rfl
        | cons e h ih =>
          intro a
          rw [List.foldl_cons, ih]
          obtain ⟨op, b⟩ := e
          cases op <;> simp [latestStep, gets] <;> omega
      have h2 := h1 h (0, none)
      rw [latestStep]
      simp only [Nat.zero_add] at h2
      simp only [h2]
      cases hp : presents op b with
      | none => rfl
      | some r => cases op <;> rfl
    rw [hL]
    have key1 : ∀ n r, presents op b = some r → (if r.id = id then acc.2.map (fun _ => f n r) else acc.2) = some k → n = tick (gets h) op →
        ∃ n r, (match presents op b with
          | none => latestAt h id
          | some r => if r.id = id then some (tick (gets h) op, r) else latestAt h id) = some (n, r) ∧ f n r = k := by
      intro n r hp hk hn
      subst hn
      rw [hp]
      by_cases e : r.id = id
      · simp only [e, if_true, Option.map_eq_some_iff] at hk ⊢
        obtain ⟨_, _, h2⟩ := hk
        exact ⟨_, r, rfl, h2⟩
      · simp only [e, if_false] at hk ⊢
        exact ih2 k hk
    have key2 : ∀ n r, presents op b = some r → (if r.id = id then some (f n r) else acc.2) = some k → n = tick (gets h) op →
        ∃ n r, (match presents op b with
          | none => latestAt h id
          | some r => if r.id = id then some (tick (gets h) op, r) else latestAt h id) = some (n, r) ∧ f n r = k := by
      intro n r hp hk hn
      subst hn
      rw [hp]
      by_cases e : r.id = id
      · simp only [e, if_true, Option.some.injEq] at hk ⊢
        exact ⟨_, r, rfl, hk⟩
      · simp only [e, if_false] at hk ⊢
        exact ih2 k hk
    cases op with
    | get r => cases b with
      | true => exact key1 _ r rfl hk rfl
      | false => exact key2 _ r rfl hk rfl
    | find r u => cases u with
      | false => exact ih2 k hk
      | true => cases b with
        | true => exact key1 _ r rfl hk rfl
        | false => exact ih2 k hk
    | insert r => cases b with
      | true => exact key2 _ r rfl hk rfl
      | false => exact ih2 k hk
    | remove i => exact ih2 k hk
    | evict r => exact ih2 k hk

theorem latestAt_latest : ∀ (h : List (Op × Bool)) (id : ObjId), (latestAt h id).map Prod.snd = latest h id := by
  intro h
  induction h using List.reverseRecOn with
  | nil => intro id; rfl
  | append_singleton h e ih =>
    intro id
    obtain ⟨op, b⟩ := e
    rw [latestAt, List.foldl_append]
    simp only [List.foldl_cons, List.foldl_nil]
    have ih' := ih id
    rw [latestAt] at ih'
    rw [latestStep]
    cases hp : presents op b with
    | none => simp only [hp]; rw [ih']; simp [latest, hp]
    | some r =>
      simp only [hp]
      by_cases e : r.id = id
      · simp [e, latest, hp]
      · have : (r.id == id) = false := by simpa using e
        simp only [e, if_false]; rw [ih']; simp [latest, hp, this]

end
end Verif

namespace Verif
open Spec

theorem latest_mem {h : List (Op × Bool)} {id : ObjId} {r : Req} (hl : latest h id = some r) : ∃ e ∈ h, presents e.1 e.2 = some r := by
  have := List.mem_of_find?_eq_some hl
  rw [List.mem_reverse, List.mem_filterMap] at this
  exact this

theorem latest_id {h : List (Op × Bool)} {id : ObjId} {r : Req} (hl : latest h id = some r) : r.id = id := by
  have := List.find?_some hl
  simpa using this

theorem latest_presents {ops : List Op} {out : List Bool} {id : ObjId} {r : Req} (hl : latest (ops.zip out) id = some r) :
    ∃ op ∈ ops, ∃ b, presents op b = some r := by
  obtain ⟨e, he, hp⟩ := latest_mem hl
  exact ⟨e.1, (List.of_mem_zip (a := e.1) (b := e.2) he).1, e.2, hp⟩

end Verif
