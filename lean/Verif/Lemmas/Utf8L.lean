import Verif.Utf8
import Verif.Spec.Utf8
import Verif.Lemmas.JsonTextL
/-! # UTF-8: characters can be told apart, and the check is right -/

namespace Halo
namespace Utf8L
open _root_.Halo.Spec

/-- A character's encoding, by cases. -/
theorem enc_eq (c : Char) : String.utf8EncodeChar c = utf8Of c.toNat := by
  have h := c.valid
  have e : Char.ofNat c.toNat = c := Char.ofNat_toNat c
  have h1 : c.toNat < 0xD800 ∨ 0xDFFF < c.toNat ∧ c.toNat < 0x110000 := h
  rw [JsonTextL.utf8_eq (by omega) (by omega), encoded, e]

/-- Number of bytes announced by the first one. -/
def width (a : UInt8) : Nat := if a < 0x80 then 1 else if a < 0xE0 then 2 else if a < 0xF0 then 3 else 4

theorem toNat_of {n : Nat} (h : n < 256) : (UInt8.ofNat n).toNat = n := by
  rw [UInt8.toNat_ofNat']; omega

theorem valid_range (c : Char) : c.toNat < 0xD800 ∨ 0xDFFF < c.toNat ∧ c.toNat < 0x110000 := c.valid

theorem cont_of {n : Nat} : isCont (UInt8.ofNat (0x80 + n % 64)) = true := by
  simp only [isCont, Bool.and_eq_true, decide_eq_true_eq, UInt8.le_iff_toNat_le]
  rw [toNat_of (by omega)]
  refine ⟨?_, ?_⟩
  · show 128 ≤ _; omega
  · show _ ≤ 191; omega

/-- An encoding: a first byte that is no continuation, and then as many continuation bytes as it announces. -/
theorem enc_shape (c : Char) : ∃ a t, String.utf8EncodeChar c = a :: t ∧ isCont a = false ∧ t.length + 1 = width a ∧ ∀ b ∈ t, isCont b = true := by
  rw [enc_eq]
  have hr := valid_range c
  generalize c.toNat = n at hr
  unfold utf8Of
  split
  · refine ⟨_, _, rfl, ?_, ?_, by simp⟩
    · simp only [isCont, Bool.and_eq_false_iff, decide_eq_false_iff_not, UInt8.le_iff_toNat_le]
      rw [toNat_of (by omega)]
      exact .inl (show ¬ 128 ≤ n by omega)
    · rw [width, if_pos (by rw [UInt8.lt_iff_toNat_lt, toNat_of (by omega)]; assumption)]; rfl
  split
  · refine ⟨_, _, rfl, ?_, ?_, fun b hb => by
      simp only [List.mem_cons, List.not_mem_nil, or_false] at hb
      subst hb; exact cont_of⟩
    · simp only [isCont, Bool.and_eq_false_iff, decide_eq_false_iff_not, UInt8.le_iff_toNat_le]
      rw [toNat_of (by omega)]
      exact .inr (show ¬ _ ≤ 191 by omega)
    · have h := toNat_of (n := 0xC0 + n / 64) (by omega)
      rw [width, if_neg (by rw [UInt8.lt_iff_toNat_lt, h]; show ¬ _ < 128; omega), if_pos (by rw [UInt8.lt_iff_toNat_lt, h]; show _ < 224; omega)]
      rfl
  split
  · refine ⟨_, _, rfl, ?_, ?_, fun b hb => by
      simp only [List.mem_cons, List.not_mem_nil, or_false] at hb
      rcases hb with rfl | rfl <;> exact cont_of⟩
    · simp only [isCont, Bool.and_eq_false_iff, decide_eq_false_iff_not, UInt8.le_iff_toNat_le]
      rw [toNat_of (by omega)]
      exact .inr (show ¬ _ ≤ 191 by omega)
    · have h := toNat_of (n := 0xE0 + n / 4096) (by omega)
      rw [width, if_neg (by rw [UInt8.lt_iff_toNat_lt, h]; show ¬ _ < 128; omega), if_neg (by rw [UInt8.lt_iff_toNat_lt, h]; show ¬ _ < 224; omega),
        if_pos (by rw [UInt8.lt_iff_toNat_lt, h]; show _ < 240; omega)]
      rfl
  · refine ⟨_, _, rfl, ?_, ?_, fun b hb => by
      simp only [List.mem_cons, List.not_mem_nil, or_false] at hb
      rcases hb with rfl | rfl | rfl <;> exact cont_of⟩
    · simp only [isCont, Bool.and_eq_false_iff, decide_eq_false_iff_not, UInt8.le_iff_toNat_le]
      rw [toNat_of (by omega)]
      exact .inr (show ¬ _ ≤ 191 by omega)
    · have h := toNat_of (n := 0xF0 + n / 262144) (by omega)
      rw [width, if_neg (by rw [UInt8.lt_iff_toNat_lt, h]; show ¬ _ < 128; omega), if_neg (by rw [UInt8.lt_iff_toNat_lt, h]; show ¬ _ < 224; omega),
        if_neg (by rw [UInt8.lt_iff_toNat_lt, h]; show ¬ _ < 240; omega)]
      rfl

theorem utf8_nil : Utf8 [] := ⟨[], rfl⟩

theorem utf8_append {x y : Bytes} (hx : Utf8 x) (hy : Utf8 y) : Utf8 (x ++ y) := by
  obtain ⟨a, rfl⟩ := hx
  obtain ⟨b, rfl⟩ := hy
  exact ⟨a ++ b, by rw [List.flatMap_append]⟩

theorem utf8_char (c : Char) : Utf8 (String.utf8EncodeChar c) := ⟨[c], by simp⟩

/-- Whole characters can be cut out anywhere. -/
theorem split_char (c : Char) : ∀ (cs : List Char) (p s : Bytes), cs.flatMap String.utf8EncodeChar = p ++ (String.utf8EncodeChar c ++ s) →
    Utf8 p ∧ Utf8 s
  | [], p, s, h => by
    obtain ⟨a, t, e, _⟩ := enc_shape c
    rw [e] at h
    simp at h
  | d :: cs, p, s, h => by
    obtain ⟨a, t, e, ha, hw, _⟩ := enc_shape c
    obtain ⟨a', t', e', ha', hw', ht'⟩ := enc_shape d
    rw [List.flatMap_cons] at h
    cases p with
    | nil =>
      rw [List.nil_append] at h
      have h0 := h
      rw [e, e'] at h0
      simp only [List.cons_append, List.cons.injEq] at h0
      obtain ⟨rfl, h0⟩ := h0
      have := List.append_inj h0 (by omega)
      exact ⟨utf8_nil, cs, this.2.symm⟩
    | cons x p =>
      by_cases hl : t'.length ≤ p.length
      · rw [e'] at h
        simp only [List.cons_append, List.cons.injEq] at h
        obtain ⟨rfl, h⟩ := h
        obtain ⟨p', hp⟩ : ∃ p', p = t' ++ p' := by
          have := congrArg (List.take t'.length) h
          rw [List.take_left, List.take_append_of_le_length hl] at this
          exact ⟨p.drop t'.length, by conv_lhs => rw [← List.take_append_drop t'.length p, ← this]⟩
        subst hp
        rw [List.append_assoc] at h
        have h := List.append_cancel_left h
        obtain ⟨h1, h2⟩ := split_char c cs p' s h
        refine ⟨?_, h2⟩
        have : Utf8 (a' :: t') := e' ▸ utf8_char d
        exact utf8_append this h1
      · exfalso
        rw [e', e] at h
        simp only [List.cons_append, List.cons.injEq] at h
        obtain ⟨_, h⟩ := h
        have h1 : (t' ++ cs.flatMap String.utf8EncodeChar)[p.length]? = some a := by rw [h]; simp
        rw [List.getElem?_append_left (by omega)] at h1
        have := ht' a (List.mem_of_getElem? h1)
        rw [ha] at this
        cases this

theorem char_iff (c : Char) (p s : Bytes) : Utf8 (p ++ (String.utf8EncodeChar c ++ s)) ↔ Utf8 p ∧ Utf8 s := by
  constructor
  · rintro ⟨cs, h⟩
    exact split_char c cs p s h.symm
  · rintro ⟨h1, h2⟩
    exact utf8_append h1 (utf8_append (utf8_char c) h2)

theorem ascii_char {b : UInt8} (hb : b < 0x80) : String.utf8EncodeChar (Char.ofNat b.toNat) = [b] := by
  have h : b.toNat < 128 := hb
  have := JsonTextL.utf8_eq (n := b.toNat) (.inl (by omega)) (by omega)
  rw [encoded] at this
  rw [← this, utf8Of, if_pos h, UInt8.ofNat_toNat]

theorem ascii_iff {b : UInt8} (hb : b < 0x80) (p s : Bytes) : Utf8 (p ++ b :: s) ↔ Utf8 p ∧ Utf8 s := by
  have := char_iff (Char.ofNat b.toNat) p s
  rwa [ascii_char hb] at this

theorem ascii_cons {b : UInt8} (hb : b < 0x80) (s : Bytes) : Utf8 (b :: s) ↔ Utf8 s := by
  have := ascii_iff hb [] s
  simpa [utf8_nil] using this

theorem ascii_all : ∀ {w : Bytes} (_ : ∀ b ∈ w, b < 0x80) (s : Bytes), Utf8 (w ++ s) ↔ Utf8 s
  | [], _, s => Iff.rfl
  | b :: w, h, s => by
    rw [List.cons_append, ascii_cons (h b (by simp)), ascii_all fun x hx => h x (by simp [hx])]

/-! ## The check -/

theorem lt_nat {a : UInt8} {n : Nat} (h : n < 256) : a < UInt8.ofNat n ↔ a.toNat < n := by
  rw [UInt8.lt_iff_toNat_lt, toNat_of h]

theorem cont_iff {b : UInt8} : isCont b = true ↔ 0x80 ≤ b.toNat ∧ b.toNat ≤ 0xBF := by
  simp only [isCont, Bool.and_eq_true, decide_eq_true_eq, UInt8.le_iff_toNat_le]
  exact Iff.rfl

theorem eq_nat {a : UInt8} {n : Nat} (h : n < 256) : a = UInt8.ofNat n ↔ a.toNat = n := by
  rw [← UInt8.toNat_inj, toNat_of h]

theorem char_mk {n : Nat} (h : n < 0xD800 ∨ 0xE000 ≤ n) (h' : n < 0x110000) (s : Bytes) (hs : Utf8 s) : Utf8 (utf8Of n ++ s) := by
  rw [JsonTextL.utf8_eq h h']
  exact utf8_append (utf8_char _) hs

theorem valid_sound : ∀ (k : Nat) (b : Bytes), b.length ≤ k → utf8Valid b = true → Utf8 b
  | _, [], _, _ => utf8_nil
  | 0, _ :: _, h, _ => by simp at h
  | k + 1, a :: t, hl, h => by
    have ha := a.toNat_lt
    simp only [List.length_cons] at hl
    unfold utf8Valid at h
    split at h
    · next h1 => exact (ascii_cons h1 t).mpr (valid_sound k t (by omega) h)
    split at h
    · next h1 =>
      simp only [UInt8.le_iff_toNat_le] at h1
      have h1 : 0xC2 ≤ a.toNat ∧ a.toNat ≤ 0xDF := h1
      split at h
      · next b t =>
        simp only [Bool.and_eq_true, cont_iff] at h
        have := char_mk (n := (a.toNat - 0xC0) * 64 + (b.toNat - 0x80)) (by omega) (by omega) t (valid_sound k t (by simp at hl; omega) h.2)
        rw [utf8Of, if_neg (by omega), if_pos (by omega)] at this
        rwa [← (eq_nat (by omega)).mpr (show a.toNat = _ by omega), ← (eq_nat (by omega)).mpr (show b.toNat = _ by omega)] at this
      · cases h
    split at h
    · next h1 =>
      simp only [UInt8.le_iff_toNat_le] at h1
      have h1 : 0xE0 ≤ a.toNat ∧ a.toNat ≤ 0xEF := h1
      split at h
      · next b c t =>
        simp only [Bool.and_eq_true, Bool.or_eq_true, cont_iff, decide_eq_true_eq, UInt8.le_iff_toNat_le, ← UInt8.toNat_inj] at h
        obtain ⟨⟨hb, hc⟩, ht⟩ := h
        have hb : (((a.toNat = 0xE0 ∧ 0xA0 ≤ b.toNat) ∧ b.toNat ≤ 0xBF ∨ (0xE1 ≤ a.toNat ∧ a.toNat ≤ 0xEC) ∧ 0x80 ≤ b.toNat ∧ b.toNat ≤ 0xBF) ∨
          (a.toNat = 0xED ∧ 0x80 ≤ b.toNat) ∧ b.toNat ≤ 0x9F) ∨ 0xEE ≤ a.toNat ∧ 0x80 ≤ b.toNat ∧ b.toNat ≤ 0xBF := hb
        have := char_mk (n := (a.toNat - 0xE0) * 4096 + (b.toNat - 0x80) * 64 + (c.toNat - 0x80)) (by omega) (by omega) t
          (valid_sound k t (by simp at hl; omega) ht)
        rw [utf8Of, if_neg (by omega), if_neg (by omega), if_pos (by omega)] at this
        rwa [← (eq_nat (by omega)).mpr (show a.toNat = _ by omega), ← (eq_nat (by omega)).mpr (show b.toNat = _ by omega),
          ← (eq_nat (by omega)).mpr (show c.toNat = _ by omega)] at this
      · cases h
    split at h
    · next h1 =>
      simp only [UInt8.le_iff_toNat_le] at h1
      have h1 : 0xF0 ≤ a.toNat ∧ a.toNat ≤ 0xF4 := h1
      split at h
      · next b c d t =>
        simp only [Bool.and_eq_true, Bool.or_eq_true, cont_iff, decide_eq_true_eq, UInt8.le_iff_toNat_le, ← UInt8.toNat_inj] at h
        obtain ⟨⟨⟨hb, hc⟩, hd⟩, ht⟩ := h
        have hb : ((a.toNat = 0xF0 ∧ 0x90 ≤ b.toNat) ∧ b.toNat ≤ 0xBF ∨ (0xF1 ≤ a.toNat ∧ a.toNat ≤ 0xF3) ∧ 0x80 ≤ b.toNat ∧ b.toNat ≤ 0xBF) ∨
          (a.toNat = 0xF4 ∧ 0x80 ≤ b.toNat) ∧ b.toNat ≤ 0x8F := hb
        have := char_mk (n := (a.toNat - 0xF0) * 262144 + (b.toNat - 0x80) * 4096 + (c.toNat - 0x80) * 64 + (d.toNat - 0x80)) (by omega)
          (by omega) t (valid_sound k t (by simp at hl; omega) ht)
        rw [utf8Of, if_neg (by omega), if_neg (by omega), if_neg (by omega)] at this
        rwa [← (eq_nat (by omega)).mpr (show a.toNat = _ by omega), ← (eq_nat (by omega)).mpr (show b.toNat = _ by omega),
          ← (eq_nat (by omega)).mpr (show c.toNat = _ by omega), ← (eq_nat (by omega)).mpr (show d.toNat = _ by omega)] at this
      · cases h
    · cases h

theorem valid_char {n : Nat} (h : n < 0xD800 ∨ 0xDFFF < n ∧ n < 0x110000) (s : Bytes) : utf8Valid (utf8Of n ++ s) = utf8Valid s := by
  unfold utf8Of
  split
  · next h1 =>
    show utf8Valid (UInt8.ofNat n :: s) = _
    conv_lhs => unfold utf8Valid
    rw [if_pos (by rw [UInt8.lt_iff_toNat_lt, toNat_of (by omega)]; exact h1)]
  split
  · next h1 h2 =>
    show utf8Valid (UInt8.ofNat (0xC0 + n / 64) :: UInt8.ofNat (0x80 + n % 64) :: s) = _
    have ha := toNat_of (n := 0xC0 + n / 64) (by omega)
    rw [utf8Valid, if_neg (by rw [UInt8.lt_iff_toNat_lt, ha]; show ¬ _ < 128; omega),
      if_pos (by rw [UInt8.le_iff_toNat_le, UInt8.le_iff_toNat_le, ha]; show 194 ≤ _ ∧ _ ≤ 223; omega), cont_of]
    rfl
  split
  · next h1 h2 h3 =>
    show utf8Valid (UInt8.ofNat (0xE0 + n / 4096) :: UInt8.ofNat (0x80 + n / 64 % 64) :: UInt8.ofNat (0x80 + n % 64) :: s) = _
    have ha := toNat_of (n := 0xE0 + n / 4096) (by omega)
    have hb := toNat_of (n := 0x80 + n / 64 % 64) (by omega)
    rw [utf8Valid, if_neg (by rw [UInt8.lt_iff_toNat_lt, ha]; show ¬ _ < 128; omega),
      if_neg (by rw [UInt8.le_iff_toNat_le, UInt8.le_iff_toNat_le, ha]; show ¬ (194 ≤ _ ∧ _ ≤ 223); omega),
      if_pos (by rw [UInt8.le_iff_toNat_le, UInt8.le_iff_toNat_le, ha]; show 224 ≤ _ ∧ _ ≤ 239; omega)]
    simp only [cont_of, Bool.and_true]
    rw [Bool.and_eq_right_iff_imp.mpr]
    intro _
    simp only [Bool.and_eq_true, Bool.or_eq_true, decide_eq_true_eq, UInt8.le_iff_toNat_le, ← UInt8.toNat_inj, ha, hb]
    show (((224 + n / 4096 = 224 ∧ 160 ≤ 128 + n / 64 % 64) ∧ 128 + n / 64 % 64 ≤ 191 ∨ (225 ≤ 224 + n / 4096 ∧ 224 + n / 4096 ≤ 236)) ∨
      (224 + n / 4096 = 237 ∧ 128 ≤ 128 + n / 64 % 64) ∧ 128 + n / 64 % 64 ≤ 159) ∨ 238 ≤ 224 + n / 4096
    omega
  · next h1 h2 h3 =>
    show utf8Valid (UInt8.ofNat (0xF0 + n / 262144) :: UInt8.ofNat (0x80 + n / 4096 % 64) :: UInt8.ofNat (0x80 + n / 64 % 64) ::
      UInt8.ofNat (0x80 + n % 64) :: s) = _
    have ha := toNat_of (n := 0xF0 + n / 262144) (by omega)
    have hb := toNat_of (n := 0x80 + n / 4096 % 64) (by omega)
    rw [utf8Valid, if_neg (by rw [UInt8.lt_iff_toNat_lt, ha]; show ¬ _ < 128; omega),
      if_neg (by rw [UInt8.le_iff_toNat_le, UInt8.le_iff_toNat_le, ha]; show ¬ (194 ≤ _ ∧ _ ≤ 223); omega),
      if_neg (by rw [UInt8.le_iff_toNat_le, UInt8.le_iff_toNat_le, ha]; show ¬ (224 ≤ _ ∧ _ ≤ 239); omega),
      if_pos (by rw [UInt8.le_iff_toNat_le, UInt8.le_iff_toNat_le, ha]; show 240 ≤ _ ∧ _ ≤ 244; omega)]
    simp only [cont_of, Bool.and_true]
    rw [Bool.and_eq_right_iff_imp.mpr]
    intro _
    simp only [Bool.and_eq_true, Bool.or_eq_true, decide_eq_true_eq, UInt8.le_iff_toNat_le, ← UInt8.toNat_inj, ha, hb]
    show ((240 + n / 262144 = 240 ∧ 144 ≤ 128 + n / 4096 % 64) ∧ 128 + n / 4096 % 64 ≤ 191 ∨ (241 ≤ 240 + n / 262144 ∧ 240 + n / 262144 ≤ 243)) ∨
      (240 + n / 262144 = 244 ∧ 128 ≤ 128 + n / 4096 % 64) ∧ 128 + n / 4096 % 64 ≤ 143
    omega

theorem valid_complete : ∀ cs : List Char, utf8Valid (cs.flatMap String.utf8EncodeChar) = true
  | [] => rfl
  | c :: cs => by rw [List.flatMap_cons, enc_eq, valid_char (valid_range c), valid_complete cs]

/-- The check accepts exactly UTF-8. -/
theorem valid_iff (b : Bytes) : utf8Valid b = true ↔ Utf8 b := by
  constructor
  · exact valid_sound b.length b (Nat.le_refl _)
  · rintro ⟨cs, rfl⟩
    exact valid_complete cs

end Utf8L
end Halo
