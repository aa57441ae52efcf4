import Verif.Reply
import Verif.Lemmas.DecStrL
/-! # Reading the data of a reply -/

namespace Halo

theorem varint_lt {n : Nat} (h : n < 128) : varint n = [UInt8.ofNat n] := by
  rw [varint, if_pos h]

theorem varint_ge {n : Nat} (h : ¬ n < 128) : varint n = UInt8.ofNat (128 + n % 128) :: varint (n / 128) := by
  rw [varint, if_neg h]

theorem ofNat_low {n : Nat} (h : n < 128) : (UInt8.ofNat n).toNat = n := by
  rw [UInt8.toNat_ofNat']; omega

theorem ofNat_high (n : Nat) : (UInt8.ofNat (128 + n % 128)).toNat = 128 + n % 128 := by
  rw [UInt8.toNat_ofNat']; omega

/-- With `k + 1` bytes to go, a varint below `128^(k+1)` is read back. -/
theorem parseVarint_varint : ∀ (k n : Nat) (t : Bytes), n < 128 ^ (k + 1) → parseVarint (k + 1) (varint n ++ t) = some (n, t)
  | k, n, t, h => by
    by_cases hn : n < 128
    · rw [varint_lt hn, List.singleton_append, parseVarint, ofNat_low hn, if_pos hn]
    · cases k with
      | zero => omega
      | succ k =>
        rw [varint_ge hn, List.cons_append, parseVarint, ofNat_high, if_neg (by omega),
          parseVarint_varint k (n / 128) t (by rw [pow_succ] at h; omega)]
        simp only [Option.bind_eq_bind, Option.bind_some, Option.pure_def, Option.some.injEq, Prod.mk.injEq, and_true]
        omega

/-- Greater ones are refused. -/
theorem parseVarint_long : ∀ (k n : Nat) (t : Bytes), 128 ^ k ≤ n → parseVarint k (varint n ++ t) = none
  | 0, n, t, _ => by rw [parseVarint]
  | k + 1, n, t, h => by
    have hn : ¬ n < 128 := by
      have : 1 ≤ 128 ^ k := Nat.one_le_pow _ _ (by decide)
      rw [pow_succ] at h
      omega
    rw [varint_ge hn, List.cons_append, parseVarint, ofNat_high, if_neg (by omega),
      parseVarint_long k (n / 128) t (by rw [pow_succ] at h; omega)]
    rfl

theorem field_read {k : Nat} (hk : k < 31) {v : Bytes} (hv : v ≠ []) (hl : v.length < 2 ^ 63) (t : Bytes) :
    parseLengthPrefixed k (protoField k v ++ t) = some (v, t) := by
  have e : (UInt8.ofNat (8 * k + 2)).toNat = 8 * k + 2 := by rw [UInt8.toNat_ofNat']; omega
  rw [protoField, if_neg hv, List.cons_append, parseLengthPrefixed, e, if_neg (by omega), if_neg (by omega), List.append_assoc,
    varintMaxBytes, parseVarint_varint _ _ _ (by norm_num; exact hl)]
  simp

theorem field_long {k : Nat} {v : Bytes} (hl : 2 ^ 63 ≤ v.length) (t : Bytes) : parseLengthPrefixed k (protoField k v ++ t) = none := by
  have hv : v ≠ [] := by
    rintro rfl
    simp at hl
  rw [protoField, if_neg hv, List.cons_append, parseLengthPrefixed]
  split
  · rfl
  · split
    · rfl
    · rw [List.append_assoc, varintMaxBytes, parseVarint_long _ _ _ (by norm_num; exact hl)]
      rfl

theorem field_empty (k : Nat) : parseLengthPrefixed k (protoField k []) = some ([], []) := rfl

theorem field_last {k : Nat} (hk : k < 31) (v : Bytes) (hl : v.length < 2 ^ 63) :
    parseLengthPrefixed k (protoField k v) = some (v, []) := by
  by_cases hv : v = []
  · subst hv; rfl
  · have := field_read hk hv hl []
    rwa [List.append_nil] at this

theorem response_read {a : Str} {d : Bytes} (ha : a ≠ []) (hl : a.length < 2 ^ 63) (hd : d.length < 2 ^ 63) :
    parseInstantiateResponse (instantiateResponse a d) = some (a, d) := by
  unfold parseInstantiateResponse instantiateResponse
  rw [field_read (by decide) ha hl]
  simp only [Option.bind_eq_bind, Option.bind_some, field_last (k := 2) (by decide) d hd]
  rfl

/-- What the contract gets out of the host's message is the address, or nothing. -/
theorem parseReply_cases (a : Str) (d : Bytes) (hd : d.length < 2 ^ 32) :
    parseReply (some (instantiateResponse a d)) = some a ∨
      (a = [] ∨ 2 ^ 63 ≤ a.length) ∧ parseReply (some (instantiateResponse a d)) = none := by
  by_cases ha : a = []
  · subst ha
    by_cases h : d = []
    · subst h; exact .inl rfl
    · refine .inr ⟨.inl rfl, ?_⟩
      unfold parseReply parseInstantiateResponse instantiateResponse protoField
      rw [if_pos rfl, if_neg h]
      rfl
  · by_cases hl : a.length < 2 ^ 63
    · left
      unfold parseReply
      simp only [Option.bind_eq_bind, Option.bind_some, response_read ha hl (hd.trans (by decide))]
      rfl
    · refine .inr ⟨.inr (by omega), ?_⟩
      unfold parseReply parseInstantiateResponse instantiateResponse
      simp only [Option.bind_eq_bind, Option.bind_some, field_long (k := 1) (v := a) (by omega)]
      rfl

end Halo
