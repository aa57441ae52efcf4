import Verif.Types
import Verif.Spec.Quote
/-! # Specification: what a pair should announce

Independent of the model's functions. -/

namespace Halo.Spec

/-- The LP tokens due for a deposit. -/
def due (b : Pool) (d0 d1 : Nat) : Nat :=
  if b.supply = 0 then Nat.sqrt (d0 * d1) else min (d0 * b.supply / b.r0) (d1 * b.supply / b.r1)

/-- The announcement fits the request made to the pool `b` of the assets `i0` and `i1`. -/
def Reports (i0 i1 : AssetInfo) : Pool × Call → Event → Prop
  | (b, .swap0 x), .swap _ _ o a y r s k => o = i0 ∧ a = i1 ∧ y = x ∧ PriceQuote b.r0 b.r1 x r s k
  | (b, .swap1 x), .swap _ _ o a y r s k => o = i1 ∧ a = i0 ∧ y = x ∧ PriceQuote b.r1 b.r0 x r s k
  | (b, .deposit d0 d1), .provideLiquidity _ _ as s =>
    (as = (⟨i0, d0⟩, ⟨i1, d1⟩) ∨ as = (⟨i1, d1⟩, ⟨i0, d0⟩)) ∧ s = due b d0 d1
  | (b, .withdraw x), .withdrawLiquidity _ y rf =>
    y = x ∧ rf = (⟨i0, refund b.r0 x b.supply⟩, ⟨i1, refund b.r1 x b.supply⟩)
  | _, _ => False

/-- The bookkeeping of somebody who only reads announcements: by how much the two reserves and the LP supply change. -/
structure Tally where
  r0 : Int
  r1 : Int
  supply : Int

/-- One announcement, booked. `i0` is the asset of the first reserve. -/
def Tally.add (i0 : AssetInfo) (k : Tally) : Event → Tally
  | .swap _ _ o _ x r _ _ => if o = i0 then ⟨k.r0 + x, k.r1 - r, k.supply⟩ else ⟨k.r0 - r, k.r1 + x, k.supply⟩
  | .provideLiquidity _ _ as s =>
    if as.1.info = i0 then ⟨k.r0 + as.1.amount, k.r1 + as.2.amount, k.supply + s⟩
    else ⟨k.r0 + as.2.amount, k.r1 + as.1.amount, k.supply + s⟩
  | .withdrawLiquidity _ x rf => ⟨k.r0 - rf.1.amount, k.r1 - rf.2.amount, k.supply - x⟩
  | _ => k

/-- All announcements, booked one after the other. -/
def Tally.of (i0 : AssetInfo) (k : Tally) (es : List Event) : Tally := es.foldl (Tally.add i0) k

end Halo.Spec
