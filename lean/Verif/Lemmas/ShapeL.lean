import Verif.Spec.Shape
import Verif.Lemmas.JsonTextL
import Verif.Lemmas.CodecL
import Verif.Lemmas.DecStrL2
/-! # The readers accept exactly the shapes -/

namespace Halo
namespace ShapeL
open _root_.Halo.Spec
open JsonTextL

/-! ## Text inside strings -/

theorem dropPlus_iff {s d : Str} (hd : d.all isDigit = true) (hn : d ≠ []) :
    dropPlus s = d ↔ s = d ∨ s = 43 :: d := by
  cases s with
  | nil => simp [dropPlus, hn.symm]
  | cons b t =>
    rw [dropPlus]
    split
    · rename_i hb
      subst hb
      constructor
      · rintro rfl; exact .inr rfl
      · rintro (rfl | h)
        · exfalso
          have := List.all_eq_true.1 hd 43 (by simp)
          revert this; decide
        · exact (List.cons.inj h).2
    · rename_i hb
      constructor
      · rintro rfl; exact .inl rfl
      · rintro (rfl | h)
        · rfl
        · exact absurd (List.cons.inj h).1 hb

theorem count_iff {s : Str} {n : Nat} : Uint128.fromDecStr s = some n ↔ CountText s n := by
  rw [Uint128.fromDecStr_eq_some]
  constructor
  · rintro ⟨h1, h2, h3, rfl⟩
    rcases (dropPlus_iff h1 h2).1 rfl with e | e
    · exact ⟨[], _, e, .inl rfl, h2, (all_isDigit _).1 h1, dval_eq_digitsValue _, h3⟩
    · exact ⟨[43], _, e, .inr rfl, h2, (all_isDigit _).1 h1, dval_eq_digitsValue _, h3⟩
  · rintro ⟨p, d, rfl, hp, h2, h1, rfl, h3⟩
    have h1 := (all_isDigit _).2 h1
    have e : dropPlus (p ++ d) = d := (dropPlus_iff h1 h2).2 (by rcases hp with rfl | rfl; exact .inl rfl; exact .inr rfl)
    rw [e, dval_eq_digitsValue]
    exact ⟨h1, h2, h3, rfl⟩

theorem count_nodot {s : Str} {n : Nat} (h : CountText s n) : (46 : UInt8) ∉ s := by
  obtain ⟨p, d, rfl, hp, _, hd, _⟩ := h
  intro hm
  rcases List.mem_append.1 hm with hm | hm
  · rcases hp with rfl | rfl
    · cases hm
    · revert hm; decide
  · have := hd _ hm
    revert this; decide

theorem split_nodot {s : Str} (h : (46 : UInt8) ∉ s) : splitDots s = [s] := by
  induction s with
  | nil => rfl
  | cons b t ih =>
    unfold splitDots
    rw [if_neg (fun e => h (by rw [e]; exact List.mem_cons_self)), ih (fun hm => h (List.mem_cons_of_mem _ hm))]

theorem split_dot {p q : Str} (hp : (46 : UInt8) ∉ p) (hq : (46 : UInt8) ∉ q) : splitDots (p ++ asc "." ++ q) = [p, q] := by
  induction p with
  | nil =>
    show splitDots (46 :: q) = _
    unfold splitDots
    rw [if_pos (show (46 : UInt8) = chrDot from rfl), split_nodot hq]
  | cons b t ih =>
    show splitDots (b :: (t ++ asc "." ++ q)) = _
    unfold splitDots
    rw [if_neg (fun e => hp (by rw [e]; exact List.mem_cons_self)), ih (fun hm => hp (List.mem_cons_of_mem _ hm))]

theorem fraction_iff {s : Str} {d : Nat} : Decimal.fromStr s = .ok d ↔ FractionText s d := by
  have hDF : DF = 10 ^ 18 := pow18.symm
  constructor
  · intro h
    unfold Decimal.fromStr at h
    split at h
    · rename_i p hp
      have := splitDots_one hp
      subst this
      simp only [bind_eq_ok, okOr_eq_ok, count_iff, Uint128.checkedMul_eq_ok, hDF] at h
      obtain ⟨n, hn, h2, rfl⟩ := h
      exact .whole _ _ hn h2
    · rename_i p q hp
      have := splitDots_two hp
      subst this
      simp only [bind_eq_ok, okOr_eq_ok, count_iff, Uint128.checkedMul_eq_ok, Uint128.mulChk_eq_ok, require_eq_ok, pure_eq_ok, hDF] at h
      obtain ⟨n, hn, _, ⟨h2, rfl⟩, f, hf, _, h18, _, ⟨h4, rfl⟩, _, h5, rfl⟩ := h
      have := FractionText.point p q n f hn hf h18 h5
      rw [List.append_assoc] at this
      exact this
    · cases h
  · intro h
    unfold Decimal.fromStr
    cases h with
    | whole _ n hn h2 =>
      rw [split_nodot (count_nodot hn)]
      simp only [bind_eq_ok, okOr_eq_ok, count_iff, Uint128.checkedMul_eq_ok, hDF]
      exact ⟨n, hn, h2, rfl⟩
    | point p q n f hn hf h18 h5 =>
      rw [split_dot (count_nodot hn) (count_nodot hf)]
      simp only [bind_eq_ok, okOr_eq_ok, count_iff, Uint128.checkedMul_eq_ok, Uint128.mulChk_eq_ok, require_eq_ok, pure_eq_ok, hDF]
      exact ⟨n, hn, _, ⟨lt_of_le_of_lt (Nat.le_add_right _ _) h5, rfl⟩, f, hf, (), h18, _, ⟨lt_of_le_of_lt (Nat.le_add_left _ _) h5, rfl⟩, (), h5, rfl⟩

/-! ## Base64 -/

theorem b64Char_digit {n : Nat} (h : n < 64) : b64Char n = base64Digits.getD n 0 := by
  interval_cases n <;> rfl

theorem digit_eq (n i k : Nat) (h : n / 64 ^ (3 - i) % 64 = k) : base64Digit n i = b64Char k := by
  unfold base64Digit
  rw [b64Char_digit (h ▸ Nat.mod_lt _ (by decide)), h]

theorem toBase64_eq (b : Bytes) : toBase64 b = base64 b := by
  fun_induction toBase64 b with
  | case1 => rfl
  | case2 a =>
    have := a.toNat_lt
    show _ = [base64Digit _ 0, base64Digit _ 1, 61, 61]
    rw [digit_eq _ 0 (a.toNat / 4) (by norm_num; omega), digit_eq _ 1 (a.toNat % 4 * 16) (by norm_num; omega)]
  | case3 a b =>
    have := a.toNat_lt
    have := b.toNat_lt
    show _ = [base64Digit _ 0, base64Digit _ 1, base64Digit _ 2, 61]
    rw [digit_eq _ 0 (a.toNat / 4) (by norm_num; omega), digit_eq _ 1 (a.toNat % 4 * 16 + b.toNat / 16) (by norm_num; omega),
      digit_eq _ 2 (b.toNat % 16 * 4) (by norm_num; omega)]
  | case4 a b c t ih =>
    have := a.toNat_lt
    have := b.toNat_lt
    have := c.toNat_lt
    rw [ih, base64]
    show _ = base64Digit _ 0 :: base64Digit _ 1 :: base64Digit _ 2 :: base64Digit _ 3 :: base64 t
    rw [digit_eq _ 0 (a.toNat / 4) (by norm_num; omega), digit_eq _ 1 (a.toNat % 4 * 16 + b.toNat / 16) (by norm_num; omega),
      digit_eq _ 2 (b.toNat % 16 * 4 + c.toNat / 64) (by norm_num; omega), digit_eq _ 3 (c.toNat % 64) (by norm_num; omega)]

theorem b64Value_some {b : UInt8} {w : Nat} (h : b64Value b = some w) : w < 64 ∧ b64Char w = b := by
  have hb := b.toNat_lt
  have le : ∀ {x y : UInt8}, x ≤ y ↔ x.toNat ≤ y.toNat := UInt8.le_iff_toNat_le
  have back : UInt8.ofNat b.toNat = b := UInt8.ofNat_toNat
  unfold b64Value at h
  simp only [le] at h
  have c1 : (65 : UInt8).toNat = 65 := rfl
  have c2 : (90 : UInt8).toNat = 90 := rfl
  have c3 : (97 : UInt8).toNat = 97 := rfl
  have c4 : (122 : UInt8).toNat = 122 := rfl
  have c5 : (48 : UInt8).toNat = 48 := rfl
  have c6 : (57 : UInt8).toNat = 57 := rfl
  rw [c1, c2, c3, c4, c5, c6] at h
  unfold b64Char
  split at h
  · cases h
    refine ⟨by omega, ?_⟩
    rw [if_pos (by omega), show 65 + (b.toNat - 65) = b.toNat by omega, back]
  split at h
  · cases h
    refine ⟨by omega, ?_⟩
    rw [if_neg (by omega), if_pos (by omega), show 97 + (b.toNat - 71 - 26) = b.toNat by omega, back]
  split at h
  · cases h
    refine ⟨by omega, ?_⟩
    rw [if_neg (by omega), if_neg (by omega), if_pos (by omega), show 48 + (b.toNat + 4 - 52) = b.toNat by omega, back]
  split at h
  · rename_i hb
    cases h
    subst hb
    exact ⟨by omega, rfl⟩
  split at h
  · rename_i hb
    cases h
    subst hb
    exact ⟨by omega, rfl⟩
  · cases h

theorem byte_ofNat {n : Nat} (h : n < 256) : (UInt8.ofNat n).toNat = n := by
  rw [UInt8.toNat_ofNat']
  exact Nat.mod_eq_of_lt h

theorem fromBase64_some (s : Str) (b : Bytes) (h : fromBase64 s = some b) : toBase64 b = s := by
  fun_induction fromBase64 s generalizing b with
  | case1 => cases h; rfl
  | case2 a b' c d t ih =>
    simp only [Option.bind_eq_bind, Option.bind_eq_some_iff] at h
    obtain ⟨w, hw, x, hx, h⟩ := h
    obtain ⟨hw, rfl⟩ := b64Value_some hw
    obtain ⟨hx, rfl⟩ := b64Value_some hx
    by_cases hd : d = 61 ∧ t = []
    · rw [if_pos hd] at h
      by_cases hc : c = 61
      · rw [if_pos hc] at h
        split at h
        · cases h
          rw [hd.1, hd.2, hc, toBase64, byte_ofNat (by omega), show (w * 4 + x / 16) / 4 = w by omega,
            show (w * 4 + x / 16) % 4 * 16 = x by omega]
        · cases h
      · rw [if_neg hc] at h
        simp only [Option.bind_eq_some_iff] at h
        obtain ⟨y, hy, h⟩ := h
        obtain ⟨hy, rfl⟩ := b64Value_some hy
        split at h
        · cases h
          rw [hd.1, hd.2, toBase64, byte_ofNat (by omega), byte_ofNat (by omega), show (w * 4 + x / 16) / 4 = w by omega,
            show (w * 4 + x / 16) % 4 * 16 + (x % 16 * 16 + y / 4) / 16 = x by omega,
            show (x % 16 * 16 + y / 4) % 16 * 4 = y by omega]
        · cases h
    · rw [if_neg hd] at h
      simp only [Option.bind_eq_some_iff, Option.pure_def, Option.some.injEq] at h
      obtain ⟨y, hy, z, hz, r, hr, rfl⟩ := h
      obtain ⟨hy, rfl⟩ := b64Value_some hy
      obtain ⟨hz, rfl⟩ := b64Value_some hz
      rw [toBase64, ih _ hr, byte_ofNat (by omega), byte_ofNat (by omega), byte_ofNat (by omega), show (w * 4 + x / 16) / 4 = w by omega,
        show (w * 4 + x / 16) % 4 * 16 + (x % 16 * 16 + y / 4) / 16 = x by omega,
        show (x % 16 * 16 + y / 4) % 16 * 4 + (y % 4 * 64 + z) / 64 = y by omega,
        show (y % 4 * 64 + z) % 64 = z by omega]
  | case3 => cases h

theorem base64_iff {s : Str} {b : Bytes} : fromBase64 s = some b ↔ s = base64 b := by
  rw [← toBase64_eq]
  exact ⟨fun h => (fromBase64_some s b h).symm, fun h => h ▸ fromBase64_toBase64 b⟩

/-! ## Parts -/

/-- A reader that accepts exactly one shape. -/
def Reads {α : Type} (f : Json → Option α) (P : Json → α → Prop) : Prop := ∀ j x, f j = some x ↔ P j x

theorem asStr_iff {j : Json} {s : Str} : asStr j = some s ↔ j = .str s := by
  cases j <;> simp [asStr]

theorem reads_text : Reads asStr IsText := fun _ _ => asStr_iff

theorem reads_amount : Reads asU128 IsAmount := fun j n => by
  simp only [asU128, Option.bind_eq_some_iff, asStr_iff, count_iff, IsAmount]

theorem toOption_iff {α : Type} {r : R α} {x : α} : r.toOption = some x ↔ r = .ok x := by
  cases r <;> simp [Except.toOption]

theorem reads_fraction : Reads asDecimal IsFraction := fun j n => by
  simp only [asDecimal, Option.bind_eq_some_iff, asStr_iff, toOption_iff, fraction_iff, IsFraction]

theorem reads_number (bits : Nat) : Reads (asNum (2 ^ bits)) (IsNumber bits) := fun j n => by
  unfold IsNumber
  cases j <;> simp only [asNum, reduceCtorEq, false_and, Json.num.injEq]
  rename_i m
  split
  · rename_i h
    constructor
    · intro e; cases e; exact ⟨rfl, h⟩
    · rintro ⟨rfl, _⟩; rfl
  · rename_i h
    simp only [reduceCtorEq, false_iff, not_and]
    rintro rfl
    exact h

theorem reads_u8 : Reads (asNum 256) (IsNumber 8) := reads_number 8
theorem reads_u32 : Reads (asNum B32) (IsNumber 32) := reads_number 32
theorem reads_u64 : Reads (asNum B64) (IsNumber 64) := reads_number 64

theorem reads_time : Reads asTime IsTime := fun j n => by
  unfold asTime IsTime
  simp only [Option.bind_eq_some_iff, reads_amount j]
  constructor
  · rintro ⟨m, h, h'⟩
    split at h'
    · rename_i hm; cases h'; exact ⟨h, hm⟩
    · cases h'
  · rintro ⟨h, hm⟩
    exact ⟨n, h, if_pos hm⟩

theorem reads_bytes : Reads asBinary IsBytes := fun j b => by
  simp only [asBinary, Option.bind_eq_some_iff, asStr_iff, base64_iff, IsBytes]
  constructor
  · rintro ⟨_, rfl, rfl⟩; rfl
  · rintro rfl; exact ⟨_, rfl, rfl⟩

section
variable {α : Type} {f : Json → Option α} {P : Json → α → Prop}

theorem elems_iff (h : Reads f P) (js : Items) (l : List α) : asElems f js = some l ↔ List.Forall₂ P js.toList l := by
  induction js using Items.rec (motive_1 := fun _ => True) (motive_3 := fun _ => True) generalizing l with
  | nil =>
    cases l with
    | nil => simp [asElems, Items.toList]
    | cons x l => exact ⟨fun h => by simp [asElems] at h, fun h => by cases h⟩
  | cons j t _ ih =>
    rw [asElems, Items.toList]
    simp only [Option.bind_eq_some_iff, h j, Option.some.injEq]
    cases l with
    | nil => exact ⟨fun ⟨_, _, _, _, h⟩ => (nomatch h), fun h => (nomatch h)⟩
    | cons x l =>
      simp only [ih, List.forall₂_cons, List.cons.injEq]
      constructor
      · rintro ⟨_, hx, _, hl, rfl, rfl⟩; exact ⟨hx, hl⟩
      · rintro ⟨hx, hl⟩; exact ⟨_, hx, _, hl, rfl, rfl⟩
  | _ => trivial

theorem reads_list (h : Reads f P) : Reads (asVec f) (IsList P) := fun j l => by
  unfold IsList
  cases j <;> simp only [asVec, reduceCtorEq, false_and, exists_false, Json.arr.injEq, exists_eq_left', elems_iff h]

theorem reads_two (h : Reads f P) : Reads (asTwo f) (IsTwo P) := fun j p => by
  obtain ⟨x, y⟩ := p
  unfold IsTwo
  rw [← reads_list h j]
  unfold asTwo
  split
  · rename_i a b
    simp only [asVec, asElems, Option.bind_eq_some_iff, Option.some.injEq, Prod.mk.injEq, List.cons.injEq]
    constructor
    · rintro ⟨_, h1, _, h2, rfl, rfl⟩; exact ⟨_, h1, _, ⟨_, h2, _, rfl, rfl⟩, rfl, rfl⟩
    · rintro ⟨_, h1, _, ⟨_, h2, _, rfl, rfl⟩, rfl, e⟩; exact ⟨_, h1, _, h2, rfl, by simpa using e⟩
  · rename_i hne
    simp only [reduceCtorEq, false_iff]
    cases j <;> simp only [asVec, reduceCtorEq, not_false_eq_true]
    rename_i l
    intro e
    rw [elems_iff h] at e
    cases l with
    | nil => cases e
    | cons a t =>
      cases t with
      | nil => cases e; rename_i e; cases e
      | cons b t =>
        cases t with
        | nil => exact hne a b rfl
        | cons c t => cases e; rename_i e; cases e; rename_i e; cases e

theorem struct_iff {names : List Str} {j : Json} {l : List (Str × Json)} : structOf names j = some l ↔ Record names j l := by
  unfold Record
  cases j <;> simp only [structOf, reduceCtorEq, false_and, exists_false]
  rename_i m
  simp only [Json.obj.injEq, exists_eq_left']
  split
  · rename_i hc
    constructor
    · intro e
      cases e
      refine ⟨rfl, hc.2, fun p hp => ?_⟩
      have := List.all_eq_true.1 hc.1 p.1 (List.mem_map_of_mem hp)
      simpa using this
    · rintro ⟨rfl, _⟩; rfl
  · rename_i hc
    simp only [reduceCtorEq, false_iff]
    rintro ⟨rfl, hn, hm⟩
    refine hc ⟨List.all_eq_true.2 fun k hk => ?_, hn⟩
    obtain ⟨p, hp, rfl⟩ := List.mem_map.1 hk
    simpa using hm p hp

theorem lookup_iff {l : List (Str × Json)} (hn : (l.map Prod.fst).Nodup) {k : Str} {j : Json} : l.lookup k = some j ↔ (k, j) ∈ l := by
  induction l with
  | nil => simp
  | cons p t ih =>
    obtain ⟨k', j'⟩ := p
    rw [List.map_cons, List.nodup_cons] at hn
    rw [List.lookup_cons, List.mem_cons]
    by_cases e : k = k'
    · subst e
      simp only [beq_self_eq_true, Option.some.injEq, Prod.mk.injEq, true_and]
      constructor
      · rintro rfl; exact .inl rfl
      · rintro (rfl | h)
        · rfl
        · exact absurd (List.mem_map_of_mem (f := Prod.fst) h) hn.1
    · rw [beq_eq_false_iff_ne.2 e]
      simp only [Prod.mk.injEq, e, false_and, false_or]
      exact ih hn.2

theorem lookup_none {l : List (Str × Json)} (hn : (l.map Prod.fst).Nodup) {k : Str} : l.lookup k = none ↔ ∀ j, (k, j) ∉ l := by
  constructor
  · intro h j hj
    rw [(lookup_iff hn).2 hj] at h
    cases h
  · intro h
    cases e : l.lookup k with
    | none => rfl
    | some j => exact absurd ((lookup_iff hn).1 e) (h j)

theorem has_iff {names : List Str} {b : Json} {l : List (Str × Json)} (hr : Record names b l) (h : Reads f P) {k : Str} {x : α} :
    reqd f k l = some x ↔ Has l k P x := by
  unfold reqd Has
  simp only [Option.bind_eq_some_iff, lookup_iff hr.2.1, h _ _]

theorem may_iff {names : List Str} {b : Json} {l : List (Str × Json)} (hr : Record names b l) (h : Reads f P) {k : Str} {x : Option α} :
    optl f k l = some x ↔ May l k P x := by
  unfold optl
  have nul : ∀ j, nullable f j = some x ↔ (j = .null ∧ x = none) ∨ (j ≠ .null ∧ ∃ v, f j = some v ∧ x = some v) := by
    intro j
    cases j <;> simp [nullable, eq_comm]
  split
  · rename_i e
    have e := (lookup_none hr.2.1).1 e
    cases x with
    | none => exact ⟨fun _ => .inl e, fun _ => rfl⟩
    | some x =>
      simp only [Option.some.injEq, reduceCtorEq, false_iff, May]
      rintro ⟨j, hj, _⟩
      exact e j hj
  · rename_i j e
    have hj := (lookup_iff hr.2.1).1 e
    have uniq : ∀ j', (k, j') ∈ l → j' = j := fun j' h' => by
      have := (lookup_iff hr.2.1).2 h'
      rw [e] at this
      exact (Option.some.inj this).symm
    rw [nul]
    cases x with
    | none =>
      simp only [and_true, reduceCtorEq, and_false, exists_false, or_false, May]
      constructor
      · rintro rfl; exact .inr hj
      · rintro (h' | h')
        · exact absurd hj (h' j)
        · exact (uniq _ h').symm
    | some x =>
      simp only [reduceCtorEq, and_false, false_or, Option.some.injEq, May]
      constructor
      · rintro ⟨hne, v, hv, rfl⟩; exact ⟨j, hj, hne, (h _ _).1 hv⟩
      · rintro ⟨j', hj', hne, hp⟩
        cases uniq _ hj'
        exact ⟨hne, x, (h _ _).2 hp, rfl⟩

theorem tagged_iff {cases : List (Str × (Json → Option α))} {j : Json} {x : α} :
    tagged cases j = some x ↔ ∃ k b g, j = single k b ∧ cases.lookup k = some g ∧ g b = some x := by
  unfold single
  constructor
  · intro h
    unfold tagged at h
    split at h
    · simp only [Option.bind_eq_some_iff] at h
      obtain ⟨g, hg, h⟩ := h
      exact ⟨_, _, g, rfl, hg, h⟩
    · cases h
  · rintro ⟨k, b, g, rfl, hg, h⟩
    rw [tagged, hg]
    exact h

theorem lookup_mem' {cases : List (Str × (Json → Option α))} {k : Str} {g : Json → Option α} (h : cases.lookup k = some g) : (k, g) ∈ cases := by
  induction cases with
  | nil => cases h
  | cons p t ih =>
    obtain ⟨k', g'⟩ := p
    rw [List.lookup_cons] at h
    split at h
    · rename_i e
      cases h
      rw [beq_iff_eq] at e
      subst e
      exact List.mem_cons_self
    · exact List.mem_cons_of_mem _ (ih h)

end

/-! ## Types inside messages -/

/-- Open a reader of a record. -/
macro "open_record" : tactic => `(tactic|
  simp only [Option.bind_eq_bind, Option.bind_eq_some_iff, Option.map_eq_some_iff, struct_iff, Option.pure_def, Option.some.injEq])

theorem reads_info : Reads asInfo IsInfo := fun j i => by
  unfold asInfo
  rw [tagged_iff]
  constructor
  · rintro ⟨k, b, g, rfl, hk, h⟩
    replace hk := lookup_mem' hk
    simp only [List.mem_cons, Prod.mk.injEq, List.not_mem_nil, or_false] at hk
    rcases hk with ⟨rfl, rfl⟩ | ⟨rfl, rfl⟩
    · revert h; open_record
      rintro ⟨l, hl, a, ha, rfl⟩
      exact .token hl ((has_iff hl reads_text).1 ha)
    · revert h; open_record
      rintro ⟨l, hl, a, ha, rfl⟩
      exact .native hl ((has_iff hl reads_text).1 ha)
  · intro h
    cases h with
    | token hl ha =>
      refine ⟨_, _, _, rfl, rfl, ?_⟩
      open_record
      exact ⟨_, hl, _, (has_iff hl reads_text).2 ha, rfl⟩
    | native hl ha =>
      refine ⟨_, _, _, rfl, rfl, ?_⟩
      open_record
      exact ⟨_, hl, _, (has_iff hl reads_text).2 ha, rfl⟩

theorem reads_asset : Reads asAsset IsAsset := fun j a => by
  unfold asAsset IsAsset
  open_record
  refine exists_congr fun l => and_congr_right fun hl => ?_
  simp only [has_iff hl reads_info, has_iff hl reads_amount]
  constructor
  · rintro ⟨_, h1, _, h2, rfl⟩; exact ⟨h1, h2⟩
  · rintro ⟨h1, h2⟩; exact ⟨_, h1, _, h2, rfl⟩

theorem reads_requirements : Reads asRequirements IsRequirements := fun j a => by
  unfold asRequirements IsRequirements
  open_record
  refine exists_congr fun l => and_congr_right fun hl => ?_
  simp only [has_iff hl reads_amount, has_iff hl (reads_list reads_text)]
  constructor
  · rintro ⟨_, h1, _, h2, _, h3, rfl⟩; exact ⟨h1, h2, h3⟩
  · rintro ⟨h1, h2, h3⟩; exact ⟨_, h1, _, h2, _, h3, rfl⟩

theorem reads_op : Reads asOp IsOp := fun j o => by
  unfold asOp
  rw [tagged_iff]
  constructor
  · rintro ⟨k, b, g, rfl, hk, h⟩
    replace hk := lookup_mem' hk
    simp only [List.mem_cons, Prod.mk.injEq, List.not_mem_nil, or_false] at hk
    obtain ⟨rfl, rfl⟩ := hk
    revert h; open_record
    rintro ⟨l, hl, a, ha, b, hb, rfl⟩
    exact .haloSwap hl ((has_iff hl reads_info).1 ha) ((has_iff hl reads_info).1 hb)
  · intro h
    cases h with
    | haloSwap hl ha hb =>
      refine ⟨_, _, _, rfl, rfl, ?_⟩
      open_record
      exact ⟨_, hl, _, (has_iff hl reads_info).2 ha, _, (has_iff hl reads_info).2 hb, rfl⟩

theorem reads_expiration : Reads asExpiration IsExpiration := fun j o => by
  unfold asExpiration
  rw [tagged_iff]
  constructor
  · rintro ⟨k, b, g, rfl, hk, h⟩
    replace hk := lookup_mem' hk
    simp only [List.mem_cons, Prod.mk.injEq, List.not_mem_nil, or_false] at hk
    rcases hk with ⟨rfl, rfl⟩ | ⟨rfl, rfl⟩ | ⟨rfl, rfl⟩
    · revert h; open_record
      rintro ⟨n, hn, rfl⟩
      exact .atHeight ((reads_u64 _ _).1 hn)
    · revert h; open_record
      rintro ⟨n, hn, rfl⟩
      exact .atTime ((reads_time _ _).1 hn)
    · revert h; open_record
      rintro ⟨n, hn, rfl⟩
      exact .never hn
  · intro h
    cases h with
    | atHeight hn => exact ⟨_, _, _, rfl, rfl, Option.map_eq_some_iff.2 ⟨_, (reads_u64 _ _).2 hn, rfl⟩⟩
    | atTime hn => exact ⟨_, _, _, rfl, rfl, Option.map_eq_some_iff.2 ⟨_, (reads_time _ _).2 hn, rfl⟩⟩
    | never hl => exact ⟨_, _, _, rfl, rfl, Option.map_eq_some_iff.2 ⟨_, struct_iff.2 hl, rfl⟩⟩

theorem embedded_iff {j : Json} {u : Unit} : asEmbedded j = some u ↔ IsEmbedded j := by
  unfold asEmbedded
  rw [tagged_iff]
  constructor
  · rintro ⟨k, b, g, rfl, hk, h⟩
    replace hk := lookup_mem' hk
    simp only [List.mem_cons, Prod.mk.injEq, List.not_mem_nil, or_false] at hk
    rcases hk with ⟨rfl, rfl⟩ | ⟨rfl, rfl⟩ <;> (obtain ⟨n, hn, _⟩ := Option.map_eq_some_iff.1 h)
    · exact .svg ((reads_bytes _ _).1 hn)
    · exact .png ((reads_bytes _ _).1 hn)
  · intro h
    cases h with
    | svg hn => exact ⟨_, _, _, rfl, rfl, Option.map_eq_some_iff.2 ⟨_, (reads_bytes _ _).2 hn, rfl⟩⟩
    | png hn => exact ⟨_, _, _, rfl, rfl, Option.map_eq_some_iff.2 ⟨_, (reads_bytes _ _).2 hn, rfl⟩⟩

theorem logo_iff {j : Json} {u : Unit} : asLogo j = some u ↔ IsLogo j := by
  unfold asLogo
  rw [tagged_iff]
  constructor
  · rintro ⟨k, b, g, rfl, hk, h⟩
    replace hk := lookup_mem' hk
    simp only [List.mem_cons, Prod.mk.injEq, List.not_mem_nil, or_false] at hk
    rcases hk with ⟨rfl, rfl⟩ | ⟨rfl, rfl⟩
    · obtain ⟨n, hn, _⟩ := Option.map_eq_some_iff.1 h
      exact .url ((reads_text _ _).1 hn)
    · exact .embedded (embedded_iff.1 h)
  · intro h
    cases h with
    | url hn => exact ⟨_, _, _, rfl, rfl, Option.map_eq_some_iff.2 ⟨_, (reads_text _ _).2 hn, rfl⟩⟩
    | embedded hn => exact ⟨_, _, _, rfl, rfl, embedded_iff.2 hn⟩

theorem reads_minter : Reads asMinter IsMinter := fun j m => by
  unfold asMinter IsMinter
  open_record
  refine exists_congr fun l => and_congr_right fun hl => ?_
  simp only [has_iff hl reads_text, may_iff hl reads_amount]
  constructor
  · rintro ⟨_, h1, _, h2, rfl⟩; exact ⟨h1, h2⟩
  · rintro ⟨h1, h2⟩; exact ⟨_, h1, _, h2, rfl⟩

theorem reads_cw20Coin : Reads asCw20Coin IsCw20Coin := fun j m => by
  unfold asCw20Coin IsCw20Coin
  open_record
  refine exists_congr fun l => and_congr_right fun hl => ?_
  simp only [has_iff hl reads_text, has_iff hl reads_amount]
  constructor
  · rintro ⟨_, h1, _, h2, rfl⟩; exact ⟨h1, h2⟩
  · rintro ⟨h1, h2⟩; exact ⟨_, h1, _, h2, rfl⟩

/-! ## Payloads -/

theorem swapFields_iff {b : Json} {p s : Option Nat} {t : Option Str} : swapFields b = some (p, s, t) ↔ SwapFields b p s t := by
  unfold swapFields SwapFields
  open_record
  refine exists_congr fun l => and_congr_right fun hl => ?_
  simp only [may_iff hl reads_fraction, may_iff hl reads_text, Prod.mk.injEq]
  constructor
  · rintro ⟨_, h1, _, h2, _, h3, rfl, rfl, rfl⟩; exact ⟨h1, h2, h3⟩
  · rintro ⟨h1, h2, h3⟩; exact ⟨_, h1, _, h2, _, h3, rfl, rfl, rfl⟩

theorem routeFields_iff {b : Json} {o : List SwapOp} {s : Option Nat} {t : Option Str} :
    operationsFields b = some (o, s, t) ↔ RouteFields b o s t := by
  unfold operationsFields RouteFields
  open_record
  refine exists_congr fun l => and_congr_right fun hl => ?_
  simp only [has_iff hl (reads_list reads_op), may_iff hl reads_amount, may_iff hl reads_text, Prod.mk.injEq]
  constructor
  · rintro ⟨_, h1, _, h2, _, h3, rfl, rfl, rfl⟩; exact ⟨h1, h2, h3⟩
  · rintro ⟨h1, h2, h3⟩; exact ⟨_, h1, _, h2, _, h3, rfl, rfl, rfl⟩

theorem reads_pairHook : Reads asPairHook PairHook := fun j h => by
  unfold asPairHook
  rw [tagged_iff]
  constructor
  · rintro ⟨k, b, g, rfl, hk, h⟩
    replace hk := lookup_mem' hk
    simp only [List.mem_cons, Prod.mk.injEq, List.not_mem_nil, or_false] at hk
    rcases hk with ⟨rfl, rfl⟩ | ⟨rfl, rfl⟩
    · obtain ⟨⟨p, s, t⟩, hn, rfl⟩ := Option.map_eq_some_iff.1 h
      exact .swap (swapFields_iff.1 hn)
    · obtain ⟨l, hl, rfl⟩ := Option.map_eq_some_iff.1 h
      exact .withdraw (struct_iff.1 hl)
  · intro h
    cases h with
    | swap h => exact ⟨_, _, _, rfl, rfl, Option.map_eq_some_iff.2 ⟨_, swapFields_iff.2 h, rfl⟩⟩
    | withdraw h => exact ⟨_, _, _, rfl, rfl, Option.map_eq_some_iff.2 ⟨_, struct_iff.2 h, rfl⟩⟩

theorem reads_routerHook : Reads asRouterHook RouterHook := fun j h => by
  unfold asRouterHook
  rw [tagged_iff]
  constructor
  · rintro ⟨k, b, g, rfl, hk, h⟩
    replace hk := lookup_mem' hk
    simp only [List.mem_cons, Prod.mk.injEq, List.not_mem_nil, or_false] at hk
    obtain ⟨rfl, rfl⟩ := hk
    obtain ⟨⟨p, s, t⟩, hn, rfl⟩ := Option.map_eq_some_iff.1 h
    exact .operations (routeFields_iff.1 hn)
  · intro h
    cases h with
    | operations h => exact ⟨_, _, _, rfl, rfl, Option.map_eq_some_iff.2 ⟨_, routeFields_iff.2 h, rfl⟩⟩

theorem bytes_iff {α : Type} {f : Json → Option α} {P : Json → α → Prop} (h : Reads f P) {b : Bytes} {x : α} :
    (Json.parse b).bind f = some x ↔ ∃ j, JsonText b j ∧ P j x := by
  simp only [Option.bind_eq_some_iff, parse_iff, h _ _]

theorem payload_iff {read : Bytes → Option HookMsg} {shape : Json → HookMsg → Prop} {b : Bytes}
    (h : ∀ x, read b = some x ↔ ∃ j, JsonText b j ∧ shape j x) {x : HookMsg} : payloadBy read b = x ↔ Payload shape b x := by
  unfold payloadBy Payload
  cases e : read b with
  | some y =>
    rw [Option.getD_some, ← h, e]
    constructor
    · rintro rfl; exact .inl rfl
    · rintro (h' | ⟨h', _⟩)
      · exact Option.some.inj h'
      · obtain ⟨j, hj, hs⟩ := (h y).1 e
        exact absurd hs (h' j y hj)
  | none =>
    rw [Option.getD_none, ← h, e]
    constructor
    · rintro rfl
      refine .inr ⟨fun j h' hj hs => ?_, rfl⟩
      have := (h h').2 ⟨j, hj, hs⟩
      rw [e] at this
      cases this
    · rintro (h' | ⟨_, h'⟩)
      · cases h'
      · exact h'.symm

theorem anyHook_iff {b : Bytes} {x : HookMsg} :
    (readPairHook b).or (readRouterHook b) = some x ↔ ∃ j, JsonText b j ∧ AnyHook j x := by
  unfold readPairHook readRouterHook AnyHook
  cases e : Json.parse b with
  | none =>
    simp only [Option.bind_none, Option.or_none, reduceCtorEq, false_iff]
    rintro ⟨j, hj, _⟩
    rw [parse_iff.2 hj] at e
    cases e
  | some j =>
    have only : ∀ j', JsonText b j' → j' = j := fun j' h => by
      rw [parse_iff.2 h] at e; exact Option.some.inj e
    simp only [Option.bind_some]
    constructor
    · intro h
      refine ⟨j, parse_iff.1 e, ?_⟩
      cases hp : asPairHook j with
      | some y => rw [hp] at h; exact .inl ((reads_pairHook j x).1 (by rw [hp]; exact h))
      | none => rw [hp, Option.none_or] at h; exact .inr ((reads_routerHook j x).1 h)
    · rintro ⟨j', hj, h | h⟩
      · cases only j' hj
        rw [(reads_pairHook _ x).2 h, Option.some_or]
      · cases only j' hj
        rw [(reads_routerHook _ x).2 h]
        cases h
        rfl

theorem pay_iff {read : Bytes → Option HookMsg} {shape : Json → HookMsg → Prop}
    (h : ∀ b x, read b = some x ↔ ∃ j, JsonText b j ∧ shape j x) {l : List (Str × Json)} {k : Str} {x : HookMsg} :
    Has l k (IsPayload shape) x ↔ ∃ b, Has l k IsBytes b ∧ payloadBy read b = x := by
  simp only [payload_iff (h _)]
  constructor
  · rintro ⟨j, hj, b, hb, hp⟩; exact ⟨b, ⟨j, hj, hb⟩, hp⟩
  · rintro ⟨b, ⟨j, hj, hb⟩, hp⟩; exact ⟨j, hj, b, hb, hp⟩

theorem pay_any {l : List (Str × Json)} {k : Str} {x : HookMsg} :
    Has l k (IsPayload AnyHook) x ↔ ∃ b, Has l k IsBytes b ∧ classifyHook b = x := pay_iff fun _ _ => anyHook_iff

theorem pay_pair {l : List (Str × Json)} {k : Str} {x : HookMsg} :
    Has l k (IsPayload PairHook) x ↔ ∃ b, Has l k IsBytes b ∧ payloadBy readPairHook b = x := pay_iff fun _ _ => bytes_iff reads_pairHook

theorem pay_router {l : List (Str × Json)} {k : Str} {x : HookMsg} :
    Has l k (IsPayload RouterHook) x ↔ ∃ b, Has l k IsBytes b ∧ payloadBy readRouterHook b = x := pay_iff fun _ _ => bytes_iff reads_routerHook

end ShapeL
end Halo
