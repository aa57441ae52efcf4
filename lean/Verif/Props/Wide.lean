import Verif.Wide
import Verif.Props.BigNum
import Verif.Lemmas.ShapeL
import Verif.Lemmas.DemoRun
/-! # C101: wide numbers and stored assets survive being written down -/

namespace Halo
open JsonTextL
open _root_.Halo.Spec

/-! ## Wide numbers -/

/-- **C101.** A `Decimal256` is read back from the JSON text it is written as. -/
theorem C101_decimal_read_back (d : Nat) (h : d < 2 ^ 256) : Dec256.read (Dec256.write d) = .ok d := by
  simp only [Dec256.read, Dec256.write, Json.parse_print, C46_print_parse d h]

/-- **C101.** So is a `Uint256`. -/
theorem C101_uint_read_back (n : Nat) (h : n < 2 ^ 256) : Uint256.read (Uint256.write n) = .ok n := by
  have := C46_uint_print_parse n h
  rw [Uint256.fromStr, okOr_eq_ok] at this
  simp only [Uint256.read, Uint256.write, Json.parse_print, this, okOr]

/-- **C101.** Bytes are a `Decimal256` exactly if they are a JSON text of a string that is a decimal text of a value of 256 bits. -/
theorem C101_decimal_texts (b : Bytes) (v : Nat) :
    Dec256.read b = .ok v ↔ ∃ s, JsonText b (.str s) ∧ Spec.DecimalText s v ∧ v < 2 ^ 256 := by
  have key : ∀ s, JsonText b (.str s) ↔ Json.parse b = some (.str s) := fun s => parse_iff.symm
  simp only [key, ← C50_parse_exact]
  unfold Dec256.read
  split
  · rename_i s hs
    constructor
    · intro h
      refine ⟨s, hs, ?_⟩
      split at h <;> simp_all
    · rintro ⟨s', h1, h2⟩
      rw [hs] at h1
      injection h1 with h1
      injection h1 with h1
      subst h1
      rw [h2]
  · rename_i hn
    simp only [reduceCtorEq, false_iff]
    rintro ⟨s, h1, _⟩
    exact hn s h1

/-- **C101.** Bytes are a `Uint256` exactly if they are a JSON text of a string of digits, possibly none, of a value of 256 bits. -/
theorem C101_uint_texts (b : Bytes) (v : Nat) :
    Uint256.read b = .ok v ↔ ∃ s, JsonText b (.str s) ∧ Spec.IsDigits s ∧ v = Spec.digitsValue s ∧ v < 2 ^ 256 := by
  have key : ∀ s, JsonText b (.str s) ↔ Json.parse b = some (.str s) := fun s => parse_iff.symm
  have dig : ∀ s, U256.fromDecStr s = some v ↔ Spec.IsDigits s ∧ v = Spec.digitsValue s ∧ v < 2 ^ 256 := by
    intro s
    rw [U256.fromDecStr_eq_some, all_isDigit, dval_eq_digitsValue]
    constructor
    · rintro ⟨h1, h2, rfl⟩; exact ⟨h1, rfl, h2⟩
    · rintro ⟨h1, rfl, h2⟩; exact ⟨h1, h2, rfl⟩
  simp only [key, ← dig]
  unfold Uint256.read
  split
  · rename_i s hs
    rw [okOr_eq_ok, hs]
    constructor
    · intro h; exact ⟨s, rfl, h⟩
    · rintro ⟨s', h1, h2⟩
      injection h1 with h1
      injection h1 with h1
      subst h1
      exact h2
  · rename_i hn
    simp only [reduceCtorEq, false_iff]
    rintro ⟨s, h1, _⟩
    exact hn s h1

/-- **C101.** No bytes make the reader of a `Uint256` panic; that of a `Decimal256` does so only for a decimal text of too great a value. -/
theorem C101_panics (b : Bytes) (p : Panic) : Uint256.read b ≠ .error (.panic p) ∧
    (Dec256.read b = .error (.panic p) → ∃ s v, JsonText b (.str s) ∧ Spec.DecimalText s v ∧ 2 ^ 256 ≤ v) := by
  constructor
  · unfold Uint256.read
    split
    · rename_i s _
      cases hs : U256.fromDecStr s <;> simp [okOr]
    · simp
  · unfold Dec256.read
    split
    · rename_i s hs
      intro h
      split at h
      · cases h
      · rename_i q hq
        injection h with h
        injection h with h
        subst h
        obtain ⟨v, h1, h2⟩ := C50_panic_only_overflow s _ hq
        exact ⟨s, v, parse_iff.1 hs, h1, h2⟩
      · cases h
    · intro h; cases h

/-- "1.5" in quotes, with white space around it. -/
example : Dec256.read [32, 34, 49, 46, 53, 34, 10] = .ok 1500000000000000000 := by decide +kernel
/-- Two quotes are zero. -/
example : Uint256.read [34, 34] = .ok 0 := by decide +kernel
/-- Without quotes it is neither. -/
example : Uint256.read [49] = .error (.generic 24) ∧ Dec256.read [49] = .error (.generic 24) := by decide +kernel

/-! ## Stored assets -/

/-- **C101.** An asset can be stored exactly if it is a native coin or its text is an address, and is then stored under its canonical form. -/
theorem C101_asset_stored (api : Api) (a : Asset) (r : AssetRaw) : a.toRaw api = .ok r ↔
    r.amount = a.amount ∧ ((∃ d, a.info = .native d ∧ r.info = .native d) ∨
      ∃ t b, a.info = .token t ∧ api.canon t = some b ∧ r.info = .token b) := by
  obtain ⟨i, n⟩ := a
  obtain ⟨j, m⟩ := r
  cases i with
  | native d => cases j <;> simp [Asset.toRaw] <;> tauto
  | token t =>
    cases h : api.canon t <;> cases j <;>
      simp [Asset.toRaw, bind, Except.bind, pure, Except.pure, Api.canonicalize, okOr, h] <;> tauto

/-- **C101.** A stored asset is read back as the asset with the amount and, for a token, the address in its normal form. -/
theorem C101_asset_read_back {api : Api} (hapi : ∀ b s, api.human b = some s → api.canon s = some b) {r : AssetRaw} {a : Asset}
    (h : r.toNormal api = .ok a) : a.toRaw api = .ok r ∧ a.amount = r.amount := by
  obtain ⟨i, n⟩ := a
  obtain ⟨j, m⟩ := r
  cases j with
  | native d =>
    simp [AssetRaw.toNormal] at h
    obtain ⟨rfl, rfl⟩ := h
    exact ⟨rfl, rfl⟩
  | token b =>
    cases hb : api.human b with
    | none => simp [AssetRaw.toNormal, bind, Except.bind, Api.humanize, okOr, hb] at h
    | some s =>
      simp [AssetRaw.toNormal, bind, Except.bind, pure, Except.pure, Api.humanize, okOr, hb] at h
      obtain ⟨rfl, rfl⟩ := h
      have := hapi b s hb
      simp [Asset.toRaw, bind, Except.bind, pure, Except.pure, Api.canonicalize, okOr, this]

/-- **C101.** And storing changes nothing about an asset whose address is in its normal form. -/
theorem C101_asset_unchanged {api : Api} {a : Asset} (hv : ∀ t, a.info = .token t → api.validate t = .ok t) {r : AssetRaw}
    (h : a.toRaw api = .ok r) : r.toNormal api = .ok a := by
  obtain ⟨i, n⟩ := a
  cases i with
  | native d =>
    simp [Asset.toRaw] at h
    subst h
    rfl
  | token t =>
    have hv := hv t rfl
    cases hb : api.canon t with
    | none => simp [Asset.toRaw, bind, Except.bind, Api.canonicalize, okOr, hb] at h
    | some b =>
      simp [Asset.toRaw, bind, Except.bind, pure, Except.pure, Api.canonicalize, okOr, hb] at h
      subst h
      have : api.human b = some t := by
        simp only [Api.validate, Api.canonicalize, Api.humanize, hb, okOr, bind, Except.bind] at hv
        cases hh : api.human b with
        | none => simp [hh] at hv
        | some s =>
          by_cases e : s = t
          · rw [e]
          · simp [hh, require, e] at hv
      simp [AssetRaw.toNormal, bind, Except.bind, pure, Except.pure, Api.humanize, okOr, this]

/-- A token of the demonstration chain. -/
example : ∃ r, Asset.toRaw Demo.chain.api ⟨.token Demo.tA, 7⟩ = .ok r ∧ r.toNormal Demo.chain.api = .ok ⟨.token Demo.tA, 7⟩ := by
  refine ⟨⟨.token Demo.tA, 7⟩, ?_, ?_⟩ <;> decide +kernel

end Halo
