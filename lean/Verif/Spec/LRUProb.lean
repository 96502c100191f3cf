import Verif.Spec.Textbook
/-!
# LRU with promotion in one hit out of n
-/

namespace Verif.Spec

/-- Least recently used, but a hit moves its object to the front only if its draw is divisible by `n`.  The second component of the state
is the draws to come, one for each hit (0 when they have run out). -/
def lruProb (n : Nat) : Discipline (Contents × List Nat) where
  contents := fun t => t.1
  onHit := fun t r => (if t.2.headD 0 % n = 0 then toFront t.1 r.id else t.1, t.2.tail)
  evict := fun t => (t.1.dropLast, t.2)
  insert := fun t r => ((r.id, r.size % u32) :: t.1, t.2)
  remove := fun t id => (t.1.filter (fun x => x.1 ≠ id), t.2)

end Verif.Spec
