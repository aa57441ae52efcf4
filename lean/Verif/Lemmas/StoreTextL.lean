import Verif.Spec.Store
import Verif.Lemmas.StoreChainL
/-! # The texts and keys of the storage -/

namespace Halo
namespace StoreL
open Codec QueryCodec ByteChain
open _root_.Halo.Spec

/-! ## Quotes -/

/-- Bytes written as they are. -/
def Plain (b : UInt8) : Prop := 32 ≤ b ∧ b ≠ 34 ∧ b ≠ 92

theorem escape_plain {b : UInt8} (h : Plain b) : escapeByte b = [b] := by
  obtain ⟨h1, h2, h3⟩ := h
  have e : ∀ x : UInt8, x < 32 → b ≠ x := fun x hx e => absurd h1 (by rw [e]; exact UInt8.not_le.2 hx)
  unfold escapeByte
  rw [if_neg h2, if_neg h3, if_neg (e 8 (by decide)), if_neg (e 12 (by decide)), if_neg (e 10 (by decide)), if_neg (e 13 (by decide)),
    if_neg (e 9 (by decide)), if_neg (UInt8.not_lt.2 h1)]

theorem printStr_plain {s : Str} (h : ∀ b ∈ s, Plain b) : printStr s = [34] ++ s ++ [34] := by
  have : s.flatMap escapeByte = s := by
    induction s with
    | nil => rfl
    | cons b t ih =>
      rw [List.flatMap_cons, escape_plain (h b (by simp)), ih fun x hx => h x (by simp [hx])]
      rfl
  rw [printStr, this]
  rfl

instance (b : UInt8) : Decidable (Plain b) := inferInstanceAs (Decidable (_ ∧ _ ∧ _))

theorem plain_digit {b : UInt8} (h : isDigit b = true) : Plain b := by
  unfold isDigit chr0 chr9 at h
  rw [Bool.and_eq_true, decide_eq_true_eq, decide_eq_true_eq] at h
  obtain ⟨h1, h2⟩ := h
  rw [UInt8.le_iff_toNat_le] at h1 h2
  have h1 : 48 ≤ b.toNat := h1
  have h2 : b.toNat ≤ 57 := h2
  refine ⟨?_, ?_, ?_⟩
  · rw [UInt8.le_iff_toNat_le]; exact le_trans (by decide) h1
  · rintro rfl; exact absurd h1 (by decide)
  · rintro rfl; exact absurd h2 (by decide)

theorem plain_64 (n : Nat) (h : n < 64) : Plain (b64Char n) := by
  interval_cases n <;> decide

theorem printStr_dec (n : Nat) : printStr (natToDec n) = quoted n :=
  printStr_plain fun b hb => plain_digit (List.all_eq_true.1 (natToDec_all n) b hb)

theorem plain_base : ∀ (b : Bytes), ∀ x ∈ toBase64 b, Plain x
  | [] => by simp [toBase64]
  | [a] => by
    have := a.toNat_lt
    simp only [toBase64, List.mem_cons, List.not_mem_nil, or_false]
    rintro x (rfl | rfl | rfl | rfl)
    · exact plain_64 _ (by omega)
    · exact plain_64 _ (by omega)
    · decide
    · decide
  | [a, b] => by
    have := a.toNat_lt
    have := b.toNat_lt
    simp only [toBase64, List.mem_cons, List.not_mem_nil, or_false]
    rintro x (rfl | rfl | rfl | rfl)
    · exact plain_64 _ (by omega)
    · exact plain_64 _ (by omega)
    · exact plain_64 _ (by omega)
    · decide
  | a :: b :: c :: t => by
    have := a.toNat_lt
    have := b.toNat_lt
    have := c.toNat_lt
    simp only [toBase64, List.mem_cons]
    rintro x (rfl | rfl | rfl | rfl | h)
    · exact plain_64 _ (by omega)
    · exact plain_64 _ (by omega)
    · exact plain_64 _ (by omega)
    · exact plain_64 _ (by omega)
    · exact plain_base t x h

theorem printStr_base (b : Bytes) : printStr (toBase64 b) = based b := printStr_plain (plain_base b)

/-! ## Texts -/

theorem rest_text {α : Type} (f : α → Json) : ∀ l : List α,
    (Items.ofList (l.map f)).printRest = (l.flatMap fun x => 44 :: (f x).print) ++ [93]
  | [] => rfl
  | x :: t => by
    rw [List.flatMap_cons, List.append_assoc, ← rest_text f t]
    rfl

theorem intercalate_text : ∀ (x : Bytes) (l : List Bytes), ([44] : Bytes).intercalate (x :: l) = x ++ l.flatMap fun y => 44 :: y
  | x, [] => by simp
  | x, y :: t => by
    rw [List.intercalate_cons_cons, intercalate_text y t, List.flatMap_cons]
    simp

theorem vec_text {α : Type} (f : α → Json) (l : List α) : (vecJ f l).print = listed (l.map fun x => (f x).print) := by
  cases l with
  | nil => rfl
  | cons x t =>
    show 91 :: ((f x).print ++ (Items.ofList (t.map f)).printRest) = _
    rw [rest_text, listed, List.map_cons, intercalate_text, List.flatMap_map]
    simp

theorem two_text {α : Type} (f : α → Json) (p : α × α) : (twoJ f p).print = listed [(f p.1).print, (f p.2).print] := by
  have := vec_text f [p.1, p.2]
  exact this

/-- Texts with all parentheses to the right. -/
macro "right" : tactic => `(tactic| simp only [variant, obj, Members.ofList, Json.print, Members.print, Members.printRest, List.flatten_cons, List.flatten_nil,
  List.append_assoc, List.cons_append, List.nil_append, List.append_nil])

theorem asset_text (i : AssetInfoRaw) : (rawInfoJ i).print = assetText i := by
  cases i with
  | token a => rw [assetText, ← printStr_base, rawInfoJ, canonJ]; right; rfl
  | native d => rw [assetText, rawInfoJ]; right; rfl

theorem requirements_text (r : Requirements) : (requirementsJ r).print = [asc "{\"whitelist\":", listed (r.whitelist.map printStr), asc ",\"first_asset_minimum\":",
    quoted r.firstAssetMinimum, asc ",\"second_asset_minimum\":", quoted r.secondAssetMinimum, asc "}"].flatten := by
  have e : (vecJ Json.str r.whitelist).print = listed (r.whitelist.map printStr) := vec_text _ _
  rw [← e, ← printStr_dec, ← printStr_dec, requirementsJ, u128J, u128J]; right; rfl

theorem pair_text (p : PairInfoRaw) : (pairRawJ p).print = pairText p := by
  have e1 := two_text rawInfoJ p.assetInfos
  have e2 : (twoJ Json.num p.assetDecimals).print = _ := two_text Json.num p.assetDecimals
  have e3 := requirements_text p.requirements
  rw [asset_text, asset_text] at e1
  rw [pairText, ← printStr_base, ← printStr_base, pairRawJ, canonJ, canonJ]
  right
  rw [e1, e2, e3]
  right
  rfl

theorem config_text (c : Factory.Config) : (ownConfigJ c).print = configText c := by
  rw [configText, ← printStr_base, ownConfigJ, canonJ]; right; rfl

theorem tmp_text (t : Factory.Tmp) : (tmpJ t).print = tmpText t := by
  have e1 := two_text rawInfoJ t.assetInfos
  have e2 : (twoJ Json.num t.assetDecimals).print = _ := two_text Json.num t.assetDecimals
  have e3 : (bytesJ t.pairKey).print = _ := vec_text _ t.pairKey
  rw [asset_text, asset_text] at e1
  rw [tmpText, tmpJ]
  right
  rw [e1, e2, e3]
  rfl

theorem router_text (s : Router.State) : (routerStateJ s).print = [asc "{\"halo_factory\":", based s.haloFactory, asc "}"].flatten := by
  rw [← printStr_base, routerStateJ, canonJ]; right; rfl

theorem expires_text (e : Expiration) : (expirationJ e).print = expiresText e := by
  cases e with
  | atHeight h => rw [expiresText, expirationJ]; right; rfl
  | atTime t => rw [expiresText, ← printStr_dec, expirationJ, u128J]; right; rfl
  | never => rfl

theorem allowance_text (a : Allowance) : (allowanceJ a).print = allowanceText a := by
  rw [allowanceText, ← printStr_dec, ← expires_text, allowanceJ, u128J]; right; rfl

theorem mint_text (o : Option MinterData) : (minterOptJ o).print = mintText o := by
  rcases o with _ | ⟨m, _ | cap⟩
  · rfl
  · rw [mintText, minterOptJ, optJ, minterJ, optJ]; right; rfl
  · rw [mintText, ← printStr_dec, minterOptJ, optJ, minterJ, optJ, u128J]; right; rfl

theorem token_text (s : TokenState) : (tokenRecJ (recOf s)).print = tokenText s := by
  rw [tokenText, ← printStr_dec, ← mint_text, tokenRecJ, u128J, recOf]; right; rfl

theorem u128_text (n : Nat) : (u128J n).print = quoted n := printStr_dec n

/-! ## Order -/

theorem bLt_lt : ∀ {x y : Bytes}, bLt x y = true ↔ x < y
  | [], [] => by simp [bLt]
  | [], _ :: _ => by simp [bLt]
  | _ :: _, [] => by simp [bLt]
  | a :: s, b :: t => by
    rw [List.cons_lt_cons_iff, ← bLt_lt (x := s), bLt]
    by_cases h : a < b
    · simp [h]
    · by_cases h' : b < a
      · have : a ≠ b := fun e => by rw [e] at h'; exact absurd h' (UInt8.lt_irrefl b)
        simp [h, h', this]
      · have : a = b := UInt8.le_antisymm (UInt8.not_lt.1 h') (UInt8.not_lt.1 h)
        simp [this]

end StoreL
end Halo
