import Verif.Lemmas.Utf8L
import Verif.Props.Grammar
/-! # Texts that are UTF-8 (C93) -/

namespace Halo
namespace Utf8L
open _root_.Halo.Spec

theorem escape_ascii {e x : UInt8} (h : (e, x) ∈ escapes) : e < 0x80 ∧ x < 0x80 := by
  exact (show ∀ y ∈ escapes, y.1 < 0x80 ∧ y.2 < 0x80 by decide) _ h

theorem hex_ascii {b : UInt8} {n : Nat} (h : HexDigit b n) : b < 0x80 := by
  obtain ⟨_, h | h⟩ := h
  · exact (show ∀ y ∈ asc "0123456789abcdef", y < 0x80 by decide) b (List.mem_of_getElem? h)
  · exact (show ∀ y ∈ asc "0123456789ABCDEF", y < 0x80 by decide) b (List.mem_of_getElem? h)

/-- Between the quotes: the text is UTF-8 exactly if the content is. -/
theorem string_iff {t s : Bytes} (h : StringText t s) : ∀ p, Utf8 (p ++ t) ↔ Utf8 (p ++ s) := by
  induction h with
  | nil => exact fun _ => Iff.rfl
  | plain b t s _ _ ih =>
    intro p
    have := ih (p ++ [b])
    simpa using this
  | escape e x t s h _ ih =>
    intro p
    have ha := escape_ascii h
    rw [ascii_iff (by decide), ascii_cons ha.1, ascii_iff ha.2]
    exact and_congr_right fun _ => ih []
  | unicode a b c d u t s h hu _ ih =>
    intro p
    have hd := h
    obtain ⟨_, _, _, _, h1, h2, h3, h4, _⟩ := hd
    rw [ascii_iff (by decide), ascii_cons (by decide), ascii_cons (hex_ascii h1), ascii_cons (hex_ascii h2), ascii_cons (hex_ascii h3),
      ascii_cons (hex_ascii h4), encoded, char_iff]
    exact and_congr_right fun _ => ih []
  | surrogates a b c d a' b' c' d' hi lo t s h h' _ _ _ ih =>
    intro p
    obtain ⟨_, _, _, _, h1, h2, h3, h4, _⟩ := h
    obtain ⟨_, _, _, _, h1', h2', h3', h4', _⟩ := h'
    rw [ascii_iff (by decide), ascii_cons (by decide), ascii_cons (hex_ascii h1), ascii_cons (hex_ascii h2), ascii_cons (hex_ascii h3),
      ascii_cons (hex_ascii h4), ascii_cons (by decide), ascii_cons (by decide), ascii_cons (hex_ascii h1'), ascii_cons (hex_ascii h2'),
      ascii_cons (hex_ascii h3'), ascii_cons (hex_ascii h4'), encoded, char_iff]
    exact and_congr_right fun _ => ih []

theorem white_ascii {w : Bytes} (h : White w) : ∀ b ∈ w, b < 0x80 := by
  intro b hb
  rcases h b hb with rfl | rfl | rfl | rfl <;> decide

theorem digit_ascii (n : Nat) : ∀ b ∈ natToDec n, b < 0x80 := by
  intro b hb
  have h := List.all_eq_true.mp (natToDec_all n) b hb
  simp only [isDigit, Bool.and_eq_true, decide_eq_true_eq, UInt8.le_iff_toNat_le] at h
  have h : 48 ≤ b.toNat ∧ b.toNat ≤ 57 := h
  rw [UInt8.lt_iff_toNat_lt]
  show b.toNat < 128
  omega

theorem all_utf8 {w : Bytes} (h : ∀ b ∈ w, b < 0x80) : Utf8 w := by
  have := (ascii_all h []).mpr utf8_nil
  rwa [List.append_nil] at this

theorem str_inv {s : Str} : Utf8Strings (.str s) ↔ Utf8 s := ⟨fun h => by cases h; assumption, .str s⟩
theorem arr_inv {l : Items} : Utf8Strings (.arr l) ↔ Utf8Items l := ⟨fun h => by cases h; assumption, .arr l⟩
theorem obj_inv {l : Members} : Utf8Strings (.obj l) ↔ Utf8Members l := ⟨fun h => by cases h; assumption, .obj l⟩
theorem items_inv {j : Json} {l : Items} : Utf8Items (.cons j l) ↔ Utf8Strings j ∧ Utf8Items l :=
  ⟨fun h => by cases h; exact ⟨by assumption, by assumption⟩, fun h => .cons j l h.1 h.2⟩
theorem members_inv {k : Str} {j : Json} {l : Members} : Utf8Members (.cons k j l) ↔ Utf8 k ∧ Utf8Strings j ∧ Utf8Members l :=
  ⟨fun h => by cases h; exact ⟨by assumption, by assumption, by assumption⟩, fun h => .cons k j l h.1 h.2.1 h.2.2⟩

theorem sep {b : UInt8} (hb : b < 0x80) (x y : Bytes) : Utf8 (x ++ [b] ++ y) ↔ Utf8 x ∧ Utf8 y := by
  rw [List.append_assoc]
  exact ascii_iff hb x y

theorem last {b : UInt8} (hb : b < 0x80) (x : Bytes) : Utf8 (x ++ [b]) ↔ Utf8 x := by
  rw [ascii_iff hb]
  exact and_iff_left utf8_nil

theorem white_end {w : Bytes} (h : White w) (x : Bytes) : Utf8 (x ++ w) ↔ Utf8 x := by
  obtain ⟨v, rfl⟩ : ∃ v, w = v.reverse := ⟨w.reverse, by simp⟩
  induction v with
  | nil => rw [List.reverse_nil, List.append_nil]
  | cons b v ih =>
    rw [List.reverse_cons, ← List.append_assoc, last (white_ascii h b (by simp)), ih fun c hc => h c (by simp at hc; simp [hc])]

theorem wrap {a b : UInt8} (ha : a < 0x80) (hb : b < 0x80) (x : Bytes) : Utf8 ([a] ++ x ++ [b]) ↔ Utf8 x := by
  rw [last hb]
  exact ascii_cons ha x

theorem value_iff {t : Bytes} {j : Json} (h : ValueText t j) : Utf8 t ↔ Utf8Strings j := by
  refine ValueText.rec (motive_1 := fun t j _ => Utf8 t ↔ Utf8Strings j) (motive_2 := fun t l _ => Utf8 t ↔ Utf8Items l)
    (motive_3 := fun t l _ => Utf8 t ↔ Utf8Members l) ?_ ?_ ?_ ?_ ?_ ?_ ?_ ?_ ?_ ?_ ?_ ?_ ?_ h
  · exact iff_of_true (all_utf8 (by decide)) .null
  · exact iff_of_true (all_utf8 (by decide)) (.bool _)
  · exact iff_of_true (all_utf8 (by decide)) (.bool _)
  · exact fun n => iff_of_true (all_utf8 (digit_ascii n)) (.num n)
  · intro t s h
    rw [wrap (by decide) (by decide), str_inv]
    exact string_iff h []
  · intro w hw
    rw [wrap (by decide) (by decide), arr_inv]
    exact iff_of_true (all_utf8 (white_ascii hw)) .nil
  · intro t l _ ih
    rw [wrap (by decide) (by decide), arr_inv, ih]
  · intro w hw
    rw [wrap (by decide) (by decide), obj_inv]
    exact iff_of_true (all_utf8 (white_ascii hw)) .nil
  · intro t l _ ih
    rw [wrap (by decide) (by decide), obj_inv, ih]
  · intro w t w' j hw hw' _ ih
    rw [white_end hw', ascii_all (white_ascii hw), items_inv, ih]
    exact (and_iff_left .nil).symm
  · intro w t w' r j l hw hw' _ _ ih ihr
    rw [sep (by decide), white_end hw', ascii_all (white_ascii hw), items_inv, ih, ihr]
  · intro w k w' w2 t w3 name j hw hw' hw2 hw3 hk _ ih
    rw [white_end hw3]
    have e : w ++ [34] ++ k ++ [34] ++ w' ++ [58] ++ w2 ++ t = (w ++ ([34] ++ k ++ [34]) ++ w') ++ [58] ++ (w2 ++ t) := by simp
    rw [e, sep (by decide), white_end hw', ascii_all (white_ascii hw), wrap (by decide) (by decide), ascii_all (white_ascii hw2), members_inv, ih]
    exact ⟨fun h => ⟨(string_iff hk []).mp h.1, h.2, .nil⟩, fun h => ⟨(string_iff hk []).mpr h.1, h.2.1⟩⟩
  · intro w k w' w2 t w3 r name j l hw hw' hw2 hw3 hk _ _ ih ihr
    rw [sep (by decide), white_end hw3]
    have e : w ++ [34] ++ k ++ [34] ++ w' ++ [58] ++ w2 ++ t = (w ++ ([34] ++ k ++ [34]) ++ w') ++ [58] ++ (w2 ++ t) := by simp
    rw [e, sep (by decide), white_end hw', ascii_all (white_ascii hw), wrap (by decide) (by decide), ascii_all (white_ascii hw2), members_inv, ih, ihr]
    exact ⟨fun h => ⟨(string_iff hk []).mp h.1.1, h.1.2, h.2⟩, fun h => ⟨⟨(string_iff hk []).mpr h.1, h.2.1⟩, h.2.2⟩⟩

mutual
theorem checked_iff : ∀ j : Json, j.checked = true ↔ Utf8Strings j
  | .null => iff_of_true rfl .null
  | .bool b => iff_of_true rfl (.bool b)
  | .num n => iff_of_true rfl (.num n)
  | .str s => by rw [str_inv, ← valid_iff, Json.checked]
  | .arr l => by rw [arr_inv, Json.checked, items_iff l]
  | .obj l => by rw [obj_inv, Json.checked, members_iff l]
theorem items_iff : ∀ l : Items, l.checked = true ↔ Utf8Items l
  | .nil => iff_of_true rfl .nil
  | .cons j t => by rw [items_inv, Items.checked, Bool.and_eq_true, checked_iff j, items_iff t]
theorem members_iff : ∀ l : Members, l.checked = true ↔ Utf8Members l
  | .nil => iff_of_true rfl .nil
  | .cons k j t => by rw [members_inv, Members.checked, Bool.and_eq_true, Bool.and_eq_true, checked_iff j, members_iff t, valid_iff, and_assoc]
end

end Utf8L

open _root_.Halo.Spec

/-- **C93.** The check `from_utf8` accepts exactly the bytes that encode some characters. -/
theorem C93_check (b : Bytes) : utf8Valid b = true ↔ Utf8 b := Utf8L.valid_iff b

/-- **C93.** A JSON text is UTF-8 exactly if all strings in it are. -/
theorem C93_strings {b : Bytes} {j : Json} (h : JsonText b j) : Utf8 b ↔ Utf8Strings j := by
  obtain ⟨w, t, w', hw, hw', ht, rfl⟩ := h
  rw [Utf8L.white_end hw', Utf8L.ascii_all (Utf8L.white_ascii hw), Utf8L.value_iff ht]

/-- **C93.** The reader that checks all strings reads exactly the texts of the grammar that are UTF-8. -/
theorem C93_checked (b : Bytes) (j : Json) : Json.parseChecked b = some j ↔ JsonText b j ∧ Utf8 b := by
  rw [Json.parseChecked, Option.filter_eq_some_iff, C89_json]
  exact and_congr_right fun h => by rw [C93_strings h, Utf8L.checked_iff]

/-- **C93.** So on UTF-8 it agrees with the reader used elsewhere in the model, and it refuses everything else. -/
theorem C93_same (b : Bytes) : (Utf8 b → Json.parseChecked b = Json.parse b) ∧ (¬ Utf8 b → Json.parseChecked b = none) := by
  constructor
  · intro hu
    cases h : Json.parse b with
    | none => rw [Json.parseChecked, h]; rfl
    | some j => exact (C93_checked b j).mpr ⟨(C89_json b j).mp h, hu⟩
  · intro hu
    cases h : Json.parseChecked b with
    | none => rfl
    | some j => exact absurd ((C93_checked b j).mp h).2 hu

/-- **C93.** What is written is UTF-8 exactly if the strings to be written are. -/
theorem C93_written (j : Json) : Utf8 j.print ↔ Utf8Strings j := C93_strings ((C89_json _ _).mp (Json.parse_print j))

/-! The bytes `é` and `😀`; half a character is refused, and so are an overlong slash and a surrogate. -/
example : Utf8 [0xC3, 0xA9, 0xF0, 0x9F, 0x98, 0x80] := ⟨['é', '😀'], by decide⟩
example : ¬ Utf8 [0xC3] := by rw [← C93_check]; decide
example : ¬ Utf8 [0xC0, 0xAF] := by rw [← C93_check]; decide
example : ¬ Utf8 [0xED, 0xA0, 0x80] := by rw [← C93_check]; decide
/-- A text the lax reader accepts and the checking one does not. -/
example : (Json.parse [34, 0xC3, 34]).isSome = true ∧ (Json.parseChecked [34, 0xC3, 34]).isSome = false := by decide +kernel

end Halo
