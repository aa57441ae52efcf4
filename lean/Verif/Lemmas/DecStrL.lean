import Verif.DecStr
import Verif.Lemmas.NumL
import Mathlib.Tactic.IntervalCases
/-! # Lemmas about printing and parsing decimals -/

namespace Halo

/-- Value of a digit string, continuing from `acc`. -/
def dval (acc : Nat) (s : Str) : Nat := s.foldl (fun a b => a * 10 + (b.toNat - 48)) acc

@[simp] theorem dval_nil (acc : Nat) : dval acc [] = acc := rfl
@[simp] theorem dval_cons (acc : Nat) (b : UInt8) (s : Str) :
    dval acc (b :: s) = dval (acc * 10 + (b.toNat - 48)) s := by
  unfold dval; rw [List.foldl_cons]

theorem dval_append (acc : Nat) (s t : Str) : dval acc (s ++ t) = dval (dval acc s) t := by
  simp [dval, List.foldl_append]

theorem le_dval (acc : Nat) (s : Str) : acc ≤ dval acc s := by
  induction s generalizing acc with
  | nil => simp
  | cons b t ih =>
    rw [dval_cons]
    have := ih (acc * 10 + (b.toNat - 48))
    omega

theorem fromDecLoop_eq_some {bound acc v : Nat} {s : Str} (h : acc < bound) :
    fromDecLoop bound acc s = some v ↔ dval acc s < bound ∧ v = dval acc s := by
  induction s generalizing acc with
  | nil => simp only [fromDecLoop, dval_nil, Option.some.injEq]; exact ⟨fun e => ⟨h, e.symm⟩, fun e => e.2.symm⟩
  | cons b t ih =>
    rw [dval_cons]
    have hle := le_dval (acc * 10 + (b.toNat - 48)) t
    unfold fromDecLoop
    split
    · rename_i hc
      exact ih hc.2
    · rename_i hc
      simp only [reduceCtorEq, false_iff, not_and]
      intro hlt
      exact absurd ⟨by omega, by omega⟩ hc

theorem B256_pos : 0 < B256 := by norm_num
theorem B128_pos : 0 < B128 := by norm_num

theorem U256.fromDecStr_eq_some {s : Str} {v : Nat} :
    U256.fromDecStr s = some v ↔ s.all isDigit = true ∧ dval 0 s < B256 ∧ v = dval 0 s := by
  unfold U256.fromDecStr
  split
  · rename_i h; rw [fromDecLoop_eq_some B256_pos]; simp [h]
  · rename_i h; simp [h]

theorem Uint128.fromDecStr_eq_some {s : Str} {v : Nat} :
    Uint128.fromDecStr s = some v ↔
      (dropPlus s).all isDigit = true ∧ dropPlus s ≠ [] ∧ dval 0 (dropPlus s) < B128 ∧ v = dval 0 (dropPlus s) := by
  unfold Uint128.fromDecStr
  split
  · rename_i h; rw [fromDecLoop_eq_some B128_pos]; simp [h]
  · rename_i h
    simp only [reduceCtorEq, false_iff]
    rintro ⟨h1, h2, _⟩
    exact h ⟨h1, h2⟩

theorem dropPlus_of_not_mem {s : Str} (h : 43 ∉ s) : dropPlus s = s := by
  cases s with
  | nil => rfl
  | cons b t =>
    have hb : b ≠ 43 := by rintro rfl; exact h List.mem_cons_self
    exact if_neg hb

theorem dropPlus_digits {s : Str} (h : s.all isDigit = true) : dropPlus s = s :=
  dropPlus_of_not_mem fun hm => absurd (List.all_eq_true.mp h _ hm) (by decide)

/-! ## Splitting at dots -/

theorem isDigit_ne_dot {b : UInt8} (h : isDigit b = true) : b ≠ chrDot := by
  rintro rfl; revert h; decide

theorem splitDots_nodot {s : Str} (h : s.all isDigit = true) : splitDots s = [s] := by
  induction s with
  | nil => rfl
  | cons b t ih =>
    simp only [List.all_cons, Bool.and_eq_true] at h
    simp [splitDots, isDigit_ne_dot h.1, ih h.2]

theorem splitDots_dot {p : Str} (q : Str) (h : p.all isDigit = true) :
    splitDots (p ++ chrDot :: q) = p :: splitDots q := by
  induction p with
  | nil => simp [splitDots]
  | cons b t ih =>
    simp only [List.all_cons, Bool.and_eq_true] at h
    simp [splitDots, isDigit_ne_dot h.1, ih h.2]

/-- Joining the parts with dots gives the string back. -/
theorem splitDots_one {s p : Str} (h : splitDots s = [p]) : s = p := by
  induction s generalizing p with
  | nil => simp [splitDots] at h; exact h.symm
  | cons b t ih =>
    unfold splitDots at h
    split at h
    · simp at h
      exfalso
      obtain ⟨_, h⟩ := h
      cases t with
      | nil => simp [splitDots] at h
      | cons b' t' =>
        unfold splitDots at h
        split at h
        · simp at h
        · split at h <;> simp at h
    · split at h
      · rename_i hn
        exfalso
        cases t with
        | nil => simp [splitDots] at hn
        | cons b' t' =>
          unfold splitDots at hn
          split at hn
          · simp at hn
          · split at hn <;> simp at hn
      · rename_i p' ps hn
        simp at h
        obtain ⟨h1, h2⟩ := h
        subst h2
        rw [← h1, ih hn]

theorem splitDots_ne_nil (s : Str) : splitDots s ≠ [] := by
  cases s with
  | nil => simp [splitDots]
  | cons b t =>
    unfold splitDots
    split
    · simp
    · split <;> simp

theorem splitDots_two {s p q : Str} (h : splitDots s = [p, q]) : s = p ++ chrDot :: q := by
  induction s generalizing p with
  | nil => simp [splitDots] at h
  | cons b t ih =>
    unfold splitDots at h
    split at h
    · rename_i hb
      simp at h
      obtain ⟨h1, h2⟩ := h
      subst h1
      rw [hb, splitDots_one h2]; rfl
    · split at h
      · simp at h
      · rename_i p' ps hn
        simp at h
        obtain ⟨h1, h2⟩ := h
        subst h2
        rw [← h1, ih hn]; rfl

/-! ## Printing -/

theorem chr0_add_toNat {n : Nat} (h : n < 10) : (chr0 + UInt8.ofNat n).toNat = 48 + n := by
  rw [UInt8.toNat_add]
  have h1 : chr0.toNat = 48 := rfl
  have h2 : (UInt8.ofNat n).toNat = n := by
    rw [UInt8.toNat_ofNat']; omega
  rw [h1, h2]; omega

theorem isDigit_chr {n : Nat} (h : n < 10) : isDigit (chr0 + UInt8.ofNat n) = true := by
  interval_cases n <;> decide

theorem natToDec_all (n : Nat) : (natToDec n).all isDigit = true := by
  induction n using Nat.strongRecOn with
  | ind n ih =>
    unfold natToDec
    split
    · rename_i h; simp [isDigit_chr h]
    · rename_i h
      rw [List.all_append, ih (n / 10) (by omega)]
      simp [isDigit_chr (Nat.mod_lt n (by norm_num : 10 > 0))]

theorem natToDec_ne_nil (n : Nat) : natToDec n ≠ [] := by
  unfold natToDec; split <;> simp

theorem dval_natToDec (n : Nat) : dval 0 (natToDec n) = n := by
  induction n using Nat.strongRecOn with
  | ind n ih =>
    unfold natToDec
    split
    · rename_i h
      rw [dval_cons, dval_nil, chr0_add_toNat h]; omega
    · rename_i h
      rw [dval_append, ih (n / 10) (by omega), dval_cons, dval_nil,
        chr0_add_toNat (Nat.mod_lt n (by norm_num : 10 > 0))]
      omega

theorem natToDec_length {n k : Nat} (h : n < 10 ^ (k + 1)) : (natToDec n).length ≤ k + 1 := by
  induction k generalizing n with
  | zero =>
    unfold natToDec
    simp at h
    simp [h]
  | succ k ih =>
    unfold natToDec
    split
    · simp
    · rw [List.length_append]
      have : n / 10 < 10 ^ (k + 1) := by
        rw [Nat.div_lt_iff_lt_mul (by norm_num)]
        rw [pow_succ] at h; exact h
      have := ih this
      simp; omega

/-! ## Padding and trimming zeros -/

theorem dval_replicate_zero (k acc : Nat) : dval acc (List.replicate k chr0) = acc * 10 ^ k := by
  induction k generalizing acc with
  | zero => simp
  | succ k ih =>
    rw [List.replicate_succ, dval_cons, ih]
    have : chr0.toNat - 48 = 0 := rfl
    rw [this, Nat.add_zero, pow_succ]; ring

theorem dropWhile_zero_spec (s : Str) :
    ∃ k, s = List.replicate k chr0 ++ s.dropWhile (· == chr0) := by
  induction s with
  | nil => exact ⟨0, rfl⟩
  | cons b t ih =>
    obtain ⟨k, hk⟩ := ih
    by_cases hb : b = chr0
    · refine ⟨k + 1, ?_⟩
      subst hb
      simp only [List.dropWhile_cons, beq_self_eq_true, ↓reduceIte, List.replicate_succ,
        List.cons_append]
      rw [← hk]
    · exact ⟨0, by simp [hb]⟩

theorem trimEndZeros_spec (s : Str) : ∃ k, s = trimEndZeros s ++ List.replicate k chr0 := by
  obtain ⟨k, hk⟩ := dropWhile_zero_spec s.reverse
  refine ⟨k, ?_⟩
  have := congrArg List.reverse hk
  rw [List.reverse_reverse, List.reverse_append, List.reverse_replicate] at this
  exact this

theorem all_replicate_zero (k : Nat) : (List.replicate k chr0).all isDigit = true := by
  rw [List.all_eq_true]
  intro x hx
  rw [(List.mem_replicate.mp hx).2]; decide

/-- The fractional part as printed: digits, at most 18 of them, with the right value. -/
theorem frac_spec {f : Nat} (h : f < DF) (h0 : f ≠ 0) :
    let fs := natToDec f
    let t := trimEndZeros (List.replicate (18 - fs.length) chr0 ++ fs)
    t.all isDigit = true ∧ t.length ≤ 18 ∧ dval 0 t * 10 ^ (18 - t.length) = f ∧ t ≠ [] := by
  intro fs t
  have hlen : fs.length ≤ 18 := natToDec_length (k := 17) (by
    have : (10 : Nat) ^ (17 + 1) = DF := by norm_num [DF]
    rw [this]; exact h)
  obtain ⟨k, hk⟩ := trimEndZeros_spec (List.replicate (18 - fs.length) chr0 ++ fs)
  have hk' : List.replicate (18 - fs.length) chr0 ++ fs = t ++ List.replicate k chr0 := hk
  have hl := congrArg List.length hk'
  simp only [List.length_append, List.length_replicate] at hl
  have hall : (List.replicate (18 - fs.length) chr0 ++ fs).all isDigit = true := by
    rw [List.all_append, all_replicate_zero, natToDec_all]; rfl
  rw [hk', List.all_append, Bool.and_eq_true] at hall
  have hv := congrArg (dval 0) hk'
  rw [dval_append, dval_append, dval_replicate_zero, dval_replicate_zero, Nat.zero_mul,
    dval_natToDec] at hv
  refine ⟨hall.1, by omega, ?_, ?_⟩
  · have : 18 - t.length = k := by omega
    rw [this, ← hv]
  · intro ht
    rw [ht] at hv
    simp at hv
    exact h0 hv

end Halo
