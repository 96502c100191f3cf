import Verif.Spec.Cache
import Verif.Spec.OneSize
import Mathlib.Data.List.DropRight
/-!
# LIRS on lists

Jiang and Zhang, "LIRS: an efficient low inter-reference recency set replacement policy", in the form of libCacheSim: a stack of blocks ordered by the time of the last request,
a queue of the cold blocks that are cached.  Blocks that were requested again while in the stack are hot.
-/

namespace Verif.Spec.LIRS
open Verif Verif.Spec

/-- a block of the stack; hot blocks are those of low inter-reference recency -/
structure Block where
  id : ObjId
  size : Nat
  hot : Bool
  resident : Bool
deriving DecidableEq, Repr

structure State where
  /-- last requested first -/
  stack : List Block := []
  /-- the cold blocks that are cached, newest first -/
  queue : Contents := []
  /-- the blocks of the stack that are not cached, last evicted first -/
  gone : List ObjId := []
  adm : Adm := .none
deriving Repr

/-- the sizes: of the whole cache, of its hot part, of its cold part -/
structure Limits where
  cache : Nat
  hot : Nat
  cold : Nat

def ids (l : List Block) : List ObjId := l.map (·.id)
/-- the hot blocks -/
def hotOf (l : List Block) : Contents := (l.filter (·.hot)).map (fun b => (b.id, b.size))
def hotBytes (s : State) : Nat := bytes 0 (hotOf s.stack)
def coldBytes (s : State) : Nat := bytes 0 s.queue
/-- what is cached -/
def contents (s : State) : Contents := hotOf s.stack ++ s.queue

/-- replace the stack by part of it -/
def cut (s : State) (l : List Block) : State := { s with stack := l, gone := s.gone.filter (· ∈ ids l) }

/-- drop the cold blocks at the bottom of the stack (the top block always stays) -/
def prune : List Block → List Block
  | [] => []
  | b :: l => b :: l.rdropWhile (fun x => !x.hot)

/-- evict the oldest block of the queue; the stack remembers it if it is there -/
def dropCold (s : State) : State :=
  match s.queue.getLast? with
  | none => s
  | some x =>
    { s with
      queue := s.queue.dropLast
      stack := s.stack.map (fun b => if b.id = x.1 then { b with resident := false } else b)
      gone := if x.1 ∈ ids s.stack then x.1 :: s.gone else s.gone }

/-- evict from the queue until `need` more bytes fit (at most `n` blocks) -/
def makeRoom (c : Limits) (need : Nat) : Nat → State → State
  | 0, s => s
  | n + 1, s => if coldBytes s + need > c.cold then makeRoom c need n (dropCold s) else s

/-- the block at the bottom of the stack becomes cold and joins the queue -/
def demote (c : Limits) (s : State) : State :=
  match s.stack.getLast? with
  | none => s
  | some b =>
    let s1 := makeRoom c b.size (s.queue.length + 1) { s with stack := s.stack.dropLast }
    let s2 := if b.size ≤ c.cold then { s1 with queue := (b.id, b.size) :: s1.queue } else { s with stack := s.stack.dropLast }
    cut s2 (prune s2.stack)

/-- demote blocks until `need` more bytes of hot blocks fit (at most `n` blocks) -/
def coolDown (c : Limits) (need : Nat) : Nat → State → State
  | 0, s => s
  | n + 1, s => if hotBytes s + need > c.hot then coolDown c need n (demote c s) else s

/-- move a block to the top of the stack -/
def toTop (b : Block) (l : List Block) : List Block := b :: l.filter (fun x => x.id ≠ b.id)
/-- make a block of the stack hot and cached -/
def heat (id : ObjId) (l : List Block) : List Block := l.map (fun b => if b.id = id then { b with hot := true, resident := true } else b)

/-- A request looks for the object: is it cached, and what happens to stack and queue. -/
def look (c : Limits) (s : State) (r : Req) : Bool × State :=
  match s.stack.find? (fun b => b.id = r.id) with
  | some b =>
    if b.hot then (true, cut s (prune (toTop b s.stack)))
    else if b.resident then
      let s1 := coolDown c b.size (s.stack.length + 1) { s with stack := toTop b s.stack, queue := s.queue.filter (fun x => x.1 ≠ r.id) }
      (true, { s1 with stack := heat r.id s1.stack })
    else (false, { s with stack := toTop b s.stack })
  | none =>
    match s.queue.find? (fun x => x.1 = r.id) with
    | some x =>
      let s1 := coolDown c x.2 (s.stack.length + 1) { s with queue := x :: s.queue.filter (fun x => x.1 ≠ r.id) }
      (true, { s1 with stack := ⟨x.1, x.2, false, true⟩ :: s1.stack })
    | none => (false, s)

/-- An object that is not cached comes in: a block the stack remembers becomes hot; another one becomes hot while the hot part has room, and else cold. -/
def bring (c : Limits) (s : State) (r : Req) : State :=
  match s.stack.find? (fun b => b.id = r.id) with
  | some b =>
    let s1 := coolDown c b.size (s.stack.length + 1) s
    { s1 with stack := heat r.id s1.stack, gone := s1.gone.filter (· ≠ r.id) }
  | none =>
    if r.size > c.hot ∨ r.size > c.cold then s
    else if hotBytes s + r.size ≤ c.hot then { s with stack := ⟨r.id, r.size, true, true⟩ :: s.stack }
    else
      let s1 := makeRoom c r.size (s.queue.length + 1) s
      { s1 with stack := ⟨r.id, r.size, false, true⟩ :: s1.stack, queue := (r.id, r.size) :: s1.queue }

/-- A missed object comes in, if the admission algorithm agrees and it is not larger than the cache. -/
def admit (c : Limits) (s : State) (r : Req) : State :=
  if (s.adm.admit r).1 = false ∨ r.size > c.cache then { s with adm := (s.adm.admit r).2 }
  else bring c { s with adm := (s.adm.admit r).2 } r

/-- While the stack holds more than twice the bytes of the cache, it forgets the block that was evicted longest ago. -/
def trim (c : Limits) : Nat → State → State
  | 0, s => s
  | n + 1, s =>
    if (s.stack.map (·.size)).sum > 2 * c.cache then
      match s.gone.getLast? with
      | none => s
      | some x => trim c n { s with stack := s.stack.filter (fun b => b.id ≠ x), gone := s.gone.dropLast }
    else s

def get (c : Limits) (s : State) (r : Req) : Bool × State :=
  let p := look c s r
  let s1 := if p.1 then p.2 else admit c p.2 r
  (p.1, trim c s1.gone.length s1)

/-- the calls considered: `get`, and `find` with update -/
def step (c : Limits) (s : State) : Op → Bool × State
  | .get r => get c s r
  | .find r _ => look c s r
  | _ => (false, s)

def run (c : Limits) (s : State) : List Op → List Bool × State
  | [] => ([], s)
  | op :: ops => ((step c s op).1 :: (run c (step c s op).2 ops).1, (run c (step c s op).2 ops).2)

/-- Requests that agree on the size `sz` of each object, for objects that take at most a third of the cold part, or do not fit into it. -/
def Third (c : Limits) (sz : ObjId → Nat) (r : Req) : Prop := r.size = sz r.id ∧ r.size < u32 ∧ (3 * r.size ≤ c.cold ∨ c.cold < r.size)

/-- only `get`, and `find` with update -/
def looks : Perms := { upd := true, peek := false, rem := false, ev := false, ins := false }

end Verif.Spec.LIRS
