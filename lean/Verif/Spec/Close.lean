import Verif.Spec.Replay
/-! # Specification: what announcements say has come and gone

Independent of the model's functions. -/

namespace Halo.Spec

/-- How much of the asset `i` the announcement says was given to the pair. -/
def gave (i : AssetInfo) : Event → Nat
  | .swap _ _ o _ x _ _ _ => if o = i then x else 0
  | .provideLiquidity _ _ as _ => (if as.1.info = i then as.1.amount else 0) + (if as.2.info = i then as.2.amount else 0)
  | _ => 0

/-- How much of the asset `i` the announcement says the pair paid out. -/
def took (i : AssetInfo) : Event → Nat
  | .swap _ _ _ a _ r _ _ => if a = i then r else 0
  | .withdrawLiquidity _ _ rf => (if rf.1.info = i then rf.1.amount else 0) + (if rf.2.info = i then rf.2.amount else 0)
  | _ => 0

/-- How many LP tokens the announcement says were created. -/
def created : Event → Nat
  | .provideLiquidity _ _ _ s => s
  | _ => 0

/-- How many LP tokens the announcement says were destroyed. -/
def destroyed : Event → Nat
  | .withdrawLiquidity _ x _ => x
  | _ => 0

/-- What a call of a token pays to the pair `p` as a gift: neither collected by the pair itself nor sent with a request to swap. -/
def Entry.gift (p : Addr) (e : Entry) : Nat :=
  match e.msg with
  | .transferFrom _ _ _ => if e.by_ = p then 0 else e.credits p
  | .send _ _ (.swap _ _ _) | .sendFrom _ _ _ (.swap _ _ _) => 0
  | _ => e.credits p

/-- What a call of an LP token destroys on behalf of somebody else than the pair `p`. -/
def Entry.forgone (p : Addr) (e : Entry) : Nat := if e.by_ = p then 0 else e.burns

/-- A quantity summed over announcements. -/
def total (f : Event → Nat) (es : List Event) : Nat := (es.map f).sum

end Halo.Spec
