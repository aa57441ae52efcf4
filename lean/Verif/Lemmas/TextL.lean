import Verif.Text
import Verif.Spec.Text
import Verif.Lemmas.DecStrL2
/-! # Reading printed announcements -/

namespace Halo
open _root_.Halo.Spec

theorem AssetInfo.text_eq (i : AssetInfo) : i.text = nameOf i := by cases i <;> rfl

theorem natToDec_inj {a b : Nat} : natToDec a = natToDec b ↔ a = b :=
  ⟨fun h => by rw [← dval_natToDec a, h, dval_natToDec], fun h => by rw [h]⟩

/-- What is written before the first byte that ends it is determined by the whole text. -/
theorem split_first {p : UInt8 → Bool} {x y x' y' : Str} (hx : ∀ b ∈ x, p b = true) (hx' : ∀ b ∈ x', p b = true)
    (hy : ∀ b ∈ y.head?, p b = false) (hy' : ∀ b ∈ y'.head?, p b = false) (h : x ++ y = x' ++ y') : x = x' ∧ y = y' := by
  have key : ∀ {x y : Str}, (∀ b ∈ x, p b = true) → (∀ b ∈ y.head?, p b = false) → (x ++ y).takeWhile p = x := by
    intro x y h1 h2
    rw [List.takeWhile_append_of_pos h1]
    cases y with
    | nil => simp
    | cons b t => simp [h2 b (by simp)]
  have e : x = x' := by rw [← key hx hy, h, key hx' hy']
  subst e
  exact ⟨rfl, List.append_cancel_left h⟩

theorem amount_name {a a' : Nat} {n n' : Str} (h1 : ∀ b ∈ n.head?, ¬ (48 ≤ b.toNat ∧ b.toNat ≤ 57))
    (h2 : ∀ b ∈ n'.head?, ¬ (48 ≤ b.toNat ∧ b.toNat ≤ 57)) (h : natToDec a ++ n = natToDec a' ++ n') : a = a' ∧ n = n' := by
  have nd : ∀ {n : Str}, (∀ b ∈ n.head?, ¬ (48 ≤ b.toNat ∧ b.toNat ≤ 57)) → ∀ b ∈ n.head?, isDigit b = false := by
    intro n h b hb
    have := h b hb
    rw [← isDigit_iff] at this
    simpa using this
  obtain ⟨e1, e2⟩ := split_first (p := isDigit) (List.all_eq_true.mp (natToDec_all a)) (List.all_eq_true.mp (natToDec_all a'))
    (nd h1) (nd h2) h
  exact ⟨natToDec_inj.mp e1, e2⟩

theorem not_comma {b : UInt8} (h : isDigit b = true) : b ≠ 44 := by
  rw [isDigit_iff] at h
  rintro rfl
  revert h; decide

theorem sameAsset_text {a b : Asset} (h : SameAsset a b) : a.text = b.text := by
  unfold Asset.text
  rw [AssetInfo.text_eq, AssetInfo.text_eq, h.1, h.2]

theorem two_assets {a b a' b' : Asset} (ha : Clear (nameOf a.info)) (hb : Clear (nameOf b.info)) (ha' : Clear (nameOf a'.info))
    (hb' : Clear (nameOf b'.info)) :
    a.text ++ asc ", " ++ b.text = a'.text ++ asc ", " ++ b'.text ↔ SameAsset a a' ∧ SameAsset b b' := by
  constructor
  · intro h
    rw [List.append_assoc, List.append_assoc] at h
    have nc : ∀ {a : Asset}, Clear (nameOf a.info) → ∀ x ∈ a.text, (x != 44) = true := by
      intro a h x hx
      rw [bne_iff_ne]
      unfold Asset.text at hx
      rw [AssetInfo.text_eq, List.mem_append] at hx
      rcases hx with hx | hx
      · exact not_comma (List.all_eq_true.mp (natToDec_all _) x hx)
      · rintro rfl; exact h.2 hx
    obtain ⟨e1, e2⟩ := split_first (p := (· != 44)) (nc ha) (nc ha') (by
      intro x hx; have : x = 44 := by simpa [asc] using hx.symm
      simp [this]) (by
      intro x hx; have : x = 44 := by simpa [asc] using hx.symm
      simp [this]) h
    have e3 := List.append_cancel_left e2
    unfold Asset.text at e1 e3
    simp only [AssetInfo.text_eq] at e1 e3
    obtain ⟨h1, h2⟩ := amount_name ha.1 ha'.1 e1
    obtain ⟨h3, h4⟩ := amount_name hb.1 hb'.1 e3
    exact ⟨⟨h2, h1⟩, ⟨h4, h3⟩⟩
  · rintro ⟨h1, h2⟩
    rw [sameAsset_text h1, sameAsset_text h2]

theorem two_names {a b a' b' : Str} (ha : (45 : UInt8) ∉ a) (ha' : (45 : UInt8) ∉ a') :
    a ++ asc "-" ++ b = a' ++ asc "-" ++ b' ↔ a = a' ∧ b = b' := by
  constructor
  · intro h
    rw [List.append_assoc, List.append_assoc] at h
    obtain ⟨e1, e2⟩ := split_first (p := (· != 45)) (fun x hx => by rw [bne_iff_ne]; rintro rfl; exact ha hx)
      (fun x hx => by rw [bne_iff_ne]; rintro rfl; exact ha' hx) (by
      intro x hx; have : x = 45 := by simpa [asc] using hx.symm
      simp [this]) (by
      intro x hx; have : x = 45 := by simpa [asc] using hx.symm
      simp [this]) h
    exact ⟨e1, List.append_cancel_left e2⟩
  · rintro ⟨rfl, rfl⟩; rfl

end Halo
