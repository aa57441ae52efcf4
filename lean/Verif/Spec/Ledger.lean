import Verif.Base
import Mathlib.Algebra.BigOperators.Group.Finset.Basic
import Mathlib.Algebra.BigOperators.Intervals
import Mathlib.Algebra.Order.BigOperators.Group.Finset
/-! # Specification: ledgers as functions from accounts to amounts -/

namespace Halo.Spec
open Finset

/-- Money only moved: all accounts whose amount changed lie in a finite set whose sum did not. -/
def Conserved (b b' : Addr → Nat) : Prop :=
  ∃ S : Finset Addr, (∀ a, a ∉ S → b' a = b a) ∧ ∑ a ∈ S, b' a = ∑ a ∈ S, b a

/-- All amounts together are `n`. -/
def SumsTo (b : Addr → Nat) (n : Nat) : Prop :=
  ∃ S : Finset Addr, (∀ a, a ∉ S → b a = 0) ∧ ∑ a ∈ S, b a = n

theorem Conserved.refl (b : Addr → Nat) : Conserved b b := ⟨∅, fun _ _ => rfl, rfl⟩

theorem Conserved.trans {b c d : Addr → Nat} (h1 : Conserved b c) (h2 : Conserved c d) : Conserved b d := by
  obtain ⟨S, s1, s2⟩ := h1
  obtain ⟨T, t1, t2⟩ := h2
  have grow : ∀ {b b' : Addr → Nat} {S U : Finset Addr}, S ⊆ U → (∀ a, a ∉ S → b' a = b a) →
      ∑ a ∈ S, b' a = ∑ a ∈ S, b a → ∑ a ∈ U, b' a = ∑ a ∈ U, b a := by
    intro b b' S U hsub h1 h2
    rw [← sum_sdiff hsub, ← sum_sdiff (f := b) hsub, h2]
    congr 1
    exact sum_congr rfl fun a ha => h1 a (mem_sdiff.mp ha).2
  refine ⟨S ∪ T, ?_, ?_⟩
  · intro a ha
    rw [mem_union, not_or] at ha
    rw [t1 a ha.2, s1 a ha.1]
  · rw [grow subset_union_right t1 t2, grow subset_union_left s1 s2]

/-- Conservation keeps the sum over all accounts. -/
theorem Conserved.sumsTo {b b' : Addr → Nat} {n : Nat} (h : Conserved b b') (hs : SumsTo b n) : SumsTo b' n := by
  obtain ⟨S, s1, s2⟩ := h
  obtain ⟨T, t1, t2⟩ := hs
  refine ⟨S ∪ T, ?_, ?_⟩
  · intro a ha
    rw [mem_union, not_or] at ha
    rw [s1 a ha.1, t1 a ha.2]
  · rw [← sum_sdiff (subset_union_left (s₁ := S) (s₂ := T)), s2]
    have e : ∑ a ∈ (S ∪ T) \ S, b' a = ∑ a ∈ (S ∪ T) \ S, b a :=
      sum_congr rfl fun a ha => s1 a (mem_sdiff.mp ha).2
    rw [e, sum_sdiff (subset_union_left (s₁ := S) (s₂ := T)),
      ← sum_sdiff (subset_union_right (s₁ := S) (s₂ := T)), t2]
    have e2 : ∑ a ∈ (S ∪ T) \ T, b a = 0 := sum_eq_zero fun a ha => t1 a (mem_sdiff.mp ha).2
    omega

/-- The sum over all accounts is unique. -/
theorem SumsTo.unique {b : Addr → Nat} {m n : Nat} (h1 : SumsTo b m) (h2 : SumsTo b n) : m = n := by
  obtain ⟨S, s1, s2⟩ := h1
  obtain ⟨T, t1, t2⟩ := h2
  have e : ∀ {S U : Finset Addr}, S ⊆ U → (∀ a, a ∉ S → b a = 0) → ∑ a ∈ U, b a = ∑ a ∈ S, b a := by
    intro S U hsub h
    rw [← sum_sdiff hsub]
    have : ∑ a ∈ U \ S, b a = 0 := sum_eq_zero fun a ha => h a (mem_sdiff.mp ha).2
    omega
  rw [← s2, ← t2, ← e (subset_union_left (s₁ := S) (s₂ := T)) s1, e (subset_union_right (s₁ := S) (s₂ := T)) t1]

/-- Moving `x` between two accounts conserves money. -/
theorem Conserved.of_move {b b' : Addr → Nat} {src dst : Addr} {x : Nat} (hne : src ≠ dst)
    (h1 : b' src + x = b src) (h2 : b' dst = b dst + x) (h3 : ∀ a, a ≠ src → a ≠ dst → b' a = b a) :
    Conserved b b' := by
  refine ⟨{src, dst}, ?_, ?_⟩
  · intro a ha
    simp only [mem_insert, mem_singleton, not_or] at ha
    exact h3 a ha.1 ha.2
  · rw [sum_pair hne, sum_pair hne]; omega

end Halo.Spec
