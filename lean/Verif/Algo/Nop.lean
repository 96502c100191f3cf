import Verif.Base.CacheBase
/-!
# libCacheSim/cache/eviction/nop.c
-/

namespace Verif.Nop
open Verif

/-- The state is the `cache_t` part alone. -/
abbrev State := Base Unit

/-- `nop_find`, nop.c:106-112. -/
def find (s : State) (_ : Req) (_ : Bool) : Res (Bool × State) := .ok (false, s)

/-- `nop_insert`, nop.c:124-129. -/
def insert (s : State) (_ : Req) : Res State := .ok s

/-- `nop_to_evict`, nop.c:141-144. -/
def toEvict (_ : State) : Res (Option ObjId) := .error .assertFail

/-- `nop_evict`, nop.c:154-156. -/
def evict (s : State) : Res State := .ok s

/-- `nop_remove`, nop.c:194-202. -/
def remove (s : State) (id : ObjId) : Res (Bool × State) :=
  match s.lookup id with
  | none => .ok (false, s)
  | some _ => s.removeObjBase id >>= fun b => .ok (true, b)

/-- The function table set up by `nop_init`, nop.c:44-66. -/
def algo : Algo State where
  find := find
  insert := insert
  evict := fun s _ => evict s
  remove := remove
  canInsert := fun s r => s.canInsertDefault r
  occ := fun s => s.occ
  nObj := fun s => s.nObj
  cacheSize := fun s => s.cacheSize
  md := fun s => s.objMd
  bump := Base.bump
  fuel := fun s => s.tbl.length

/-- `nop_init` sets `obj_md_size` to 0, nop.c:62. -/
def init (cacheSize : Nat) (adm : Adm) : State := Base.init cacheSize 0 adm

end Verif.Nop
