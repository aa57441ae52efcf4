import Verif.Spec.Pool
/-! # Specification: a router over constant-product pools

Independent of the model: who holds what, and how a router that always trades everything it has goes from pool to pool. -/

namespace Halo.Spec

variable {α β : Type} [DecidableEq α] [DecidableEq β]

/-- Who (`α`) holds how much of what (`β`). -/
abbrev Purses (α β : Type) := α → β → Nat

/-- `src` pays `dst` `x` of `i`. -/
def Purses.pay (b : Purses α β) (i : β) (src dst : α) (x : Nat) : Purses α β := fun q l =>
  if l = i then (if q = src then b q l - x else b q l) + (if q = dst then x else 0) else b q l

/-- A stop on a route: the pool, what is offered there, what is asked for, and the decimals of the two. -/
structure Stop (α β : Type) where
  pool : α
  offer : β
  ask : β
  offerDec : Nat
  askDec : Nat

/-- Bringing the amounts of a trade (`x` offered, `r` paid, `s` less than at the spot price) to equal decimals does not overflow. -/
def Scales (od ad x r s : Nat) : Prop :=
  (ad < od → 10 ^ (od - ad) < 2 ^ 64 ∧ r * 10 ^ (od - ad) < 2 ^ 128 ∧ s * 10 ^ (od - ad) < 2 ^ 128) ∧
  (od < ad → 10 ^ (ad - od) < 2 ^ 64 ∧ x * 10 ^ (ad - od) < 2 ^ 128)

namespace Stop

/-- What a trade of `x` pays. -/
def pays (h : Stop α β) (b : Purses α β) (x : Nat) : Nat := payout (b h.pool h.offer) (b h.pool h.ask) x

/-- `me` can trade everything it has of the offered asset: there is some, the pool is stocked and can price it. -/
structure Open (h : Stop α β) (b : Purses α β) (me : α) : Prop where
  some : b me h.offer ≠ 0
  stocked : b h.pool h.offer ≠ 0
  fits : b h.pool h.ask < 2 ^ 128
  price : Priceable (b h.pool h.offer) (b h.pool h.ask) (b me h.offer)
  scales : Scales h.offerDec h.askDec (b me h.offer) (h.pays b (b me h.offer))
    (spot (b h.pool h.offer) (b h.pool h.ask) (b me h.offer) - gross (b h.pool h.offer) (b h.pool h.ask) (b me h.offer))

/-- `me` trades everything it has of the offered asset, and the pool pays `dst`. -/
def trade (h : Stop α β) (b : Purses α β) (me dst : α) : Purses α β :=
  (b.pay h.offer me h.pool (b me h.offer)).pay h.ask h.pool dst (h.pays b (b me h.offer))

end Stop

/-- `me` goes from stop to stop; only the last pool pays `dst`, the others pay `me`. -/
inductive Travels (me dst : α) : Purses α β → List (Stop α β) → Purses α β → Prop where
  | last (b : Purses α β) (h : Stop α β) : h.Open b me → Travels me dst b [h] (h.trade b me dst)
  | on (b b' : Purses α β) (h h' : Stop α β) (hs : List (Stop α β)) : h.Open b me → Travels me dst (h.trade b me me) (h' :: hs) b' →
      Travels me dst b (h :: h' :: hs) b'

theorem Travels.unique {me dst : α} {b b1 b2 : Purses α β} {hs : List (Stop α β)} (h1 : Travels me dst b hs b1) :
    Travels me dst b hs b2 → b1 = b2 := by
  induction h1 with
  | last => intro h; cases h; rfl
  | on _ _ _ _ _ _ _ ih => intro h; cases h with | on _ _ _ _ _ _ h => exact ih h

/-- Nothing is left of an asset that is sold somewhere, if whenever it is bought it is sold again later. -/
theorem Travels.none_left {me dst : α} {i : β} {b b' : Purses α β} {hs : List (Stop α β)} (h : Travels me dst b hs b') :
    (∀ h ∈ hs, h.pool ≠ me ∧ h.offer ≠ h.ask) →
    (∀ pre h post, hs = pre ++ h :: post → h.ask = i → ∃ h' ∈ post, h'.offer = i) → (b me i = 0 ∨ ∃ h ∈ hs, h.offer = i) →
    b' me i = 0 := by
  induction h with
  | last b h _ =>
    intro hp hr h0
    obtain ⟨hp1, hp2⟩ := hp h (by simp)
    have ha : h.ask ≠ i := fun e => by
      obtain ⟨_, hm, _⟩ := hr [] h [] rfl e
      cases hm
    unfold Stop.trade Purses.pay
    rw [if_neg (Ne.symm ha)]
    rcases h0 with h0 | ⟨h', hm, h0⟩
    · split
      · rename_i e; rw [if_pos rfl, if_neg (Ne.symm hp1), e]; omega
      · exact h0
    · simp only [List.mem_singleton] at hm
      subst hm
      rw [if_pos h0.symm, if_pos rfl, if_neg (Ne.symm hp1), h0]; omega
  | on b b' h h2 hs _ _ ih =>
    intro hp hr h0
    obtain ⟨hp1, hp2⟩ := hp h (by simp)
    refine ih (fun h hm => hp h (.tail _ hm)) (fun pre h' post e ha => hr (h :: pre) h' post (by rw [e]; rfl) ha) ?_
    by_cases ha : h.ask = i
    · exact .inr (hr [] h (h2 :: hs) rfl ha)
    by_cases ho : h.offer = i
    · left
      unfold Stop.trade Purses.pay
      rw [if_neg (Ne.symm ha), if_pos ho.symm, if_pos rfl, if_neg (Ne.symm hp1), ho]; omega
    · rcases h0 with h0 | ⟨h', hm, h0⟩
      · left
        unfold Stop.trade Purses.pay
        rw [if_neg (Ne.symm ha), if_neg (Ne.symm ho)]
        exact h0
      · rcases List.mem_cons.mp hm with rfl | hm
        · exact absurd h0 ho
        · exact .inr ⟨h', hm, h0⟩

end Halo.Spec
