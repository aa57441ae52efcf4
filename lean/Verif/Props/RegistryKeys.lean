import Verif.Text
import Verif.Props.Registry
/-! # Exactly which asset pairs share a registry entry (C40) -/

namespace Halo

/-- The bytes of the two assets `l` and `h`, read one after the other, also read as the bytes of `l'` and `h'`, the
first asset being longer by `t` and the second shorter by it: `l' = l ++ t` and `h = t ++ h'`. -/
def Overlapped (l h l' h' : AssetInfoRaw) : Prop :=
  ∃ t, t ≠ [] ∧ l'.asBytes = l.asBytes ++ t ∧ h.asBytes = t ++ h'.asBytes

/-- `l` and `h` are the assets `x` and `y`, the one with the smaller bytes first. -/
def Ascending (x y l h : AssetInfoRaw) : Prop :=
  ((l = x ∧ h = y) ∨ (l = y ∧ h = x)) ∧ bLt h.asBytes l.asBytes = false

theorem ascending_sort2 (x y : AssetInfoRaw) :
    Ascending x y (Factory.sort2 (x, y)).1 (Factory.sort2 (x, y)).2 := by
  unfold Factory.sort2 Ascending
  by_cases h : bLt y.asBytes x.asBytes = true
  · simp [h, bLt_asymm h]
  · simp [h]

theorem ascending_bytes {x y l h l' h' : AssetInfoRaw} (h1 : Ascending x y l h) (h2 : Ascending x y l' h') :
    l.asBytes = l'.asBytes ∧ h.asBytes = h'.asBytes := by
  obtain ⟨h1, s1⟩ := h1
  obtain ⟨h2, s2⟩ := h2
  rcases h1 with ⟨rfl, rfl⟩ | ⟨rfl, rfl⟩ <;> rcases h2 with ⟨rfl, rfl⟩ | ⟨rfl, rfl⟩
  · exact ⟨rfl, rfl⟩
  · have := bLt_total s1 s2; exact ⟨by rw [this], by rw [this]⟩
  · have := bLt_total s1 s2; exact ⟨by rw [this], by rw [this]⟩
  · exact ⟨rfl, rfl⟩

/-- **C40 (partial).** Exactly when two pairs of assets share a registry entry: when, put in ascending order, their
bytes agree, or a part of the bytes of one second asset has moved to the end of the other pair's first asset. Missing:
in the second case the pairs are different, so the registry mixes them up (`C40_counterexample`). -/
theorem C40_exact_partial (x y u v l h l' h' : AssetInfoRaw) (h1 : Ascending x y l h) (h2 : Ascending u v l' h') :
    Factory.pairKey (x, y) = Factory.pairKey (u, v) ↔
      (l.asBytes = l'.asBytes ∧ h.asBytes = h'.asBytes) ∨ Overlapped l h l' h' ∨ Overlapped l' h' l h := by
  obtain ⟨e1, e2⟩ := ascending_bytes (ascending_sort2 x y) h1
  obtain ⟨e3, e4⟩ := ascending_bytes (ascending_sort2 u v) h2
  unfold Factory.pairKey Overlapped
  simp only
  rw [e1, e2, e3, e4]
  constructor
  · intro hk
    rcases List.append_eq_append_iff.mp hk with ⟨t, ha, hb⟩ | ⟨t, ha, hb⟩
    · cases t with
      | nil => left; simp only [List.append_nil] at ha; exact ⟨ha.symm, by simpa using hb⟩
      | cons c t => exact .inr (.inl ⟨_, List.cons_ne_nil _ _, ha, hb⟩)
    · cases t with
      | nil => left; simp only [List.append_nil] at ha; exact ⟨ha, by simpa using hb.symm⟩
      | cons c t => exact .inr (.inr ⟨_, List.cons_ne_nil _ _, ha, hb⟩)
  · rintro (⟨ha, hb⟩ | ⟨t, _, ha, hb⟩ | ⟨t, _, ha, hb⟩)
    · rw [ha, hb]
    · rw [ha, hb, List.append_assoc]
    · rw [ha, hb, List.append_assoc]

/-- **C40 (partial).** In every reachable state, the pair returned for two assets is a pair of these assets, or its bytes
are those of the assets shifted: the bytes of one first asset begin with those of the other. -/
theorem C40_lookup_exact_partial {c : Chain} (hc : c.Lawful) {w : World} (hw : Reachable c w) {a : Addr} {adm : Option Addr}
    {s : Factory.State} (ha : w.contracts a = some ⟨adm, .factory s⟩) {x y : AssetInfo} {info : PairInfo}
    (hq : Factory.queryPair c.api s (x, y) = .ok info) :
    ∃ rx ry ru rv l h l' h', x.toRaw c.api = .ok rx ∧ y.toRaw c.api = .ok ry ∧
      info.assetInfos.1.toRaw c.api = .ok ru ∧ info.assetInfos.2.toRaw c.api = .ok rv ∧
      Ascending rx ry l h ∧ Ascending ru rv l' h' ∧
      ((l.asBytes = l'.asBytes ∧ h.asBytes = h'.asBytes) ∨ Overlapped l h l' h' ∨ Overlapped l' h' l h) := by
  simp only [Factory.queryPair, bind_eq_ok, okOr_eq_ok] at hq
  obtain ⟨r0, h0, r1, h1, p, hp, hn⟩ := hq
  obtain ⟨n0, n1⟩ := pairInfo_normal hn
  have hk := ((hw.factoriesOk (Q := fun _ => True) (fun _ _ _ _ _ _ _ => trivial)) a adm s ha).keyed _ (get_mem hp)
  exact ⟨r0, r1, _, _, _, _, _, _, h0, h1, toRaw_toNormal hc n0, toRaw_toNormal hc n1, ascending_sort2 _ _,
    ascending_sort2 _ _, (C40_exact_partial _ _ _ _ _ _ _ _ (ascending_sort2 _ _) (ascending_sort2 _ _)).mp hk.1⟩

/-- The pairs of the counterexample: "abc"/"abcd" and "abca"/"bcd". -/
example : Factory.pairKey (.native (asc "abcd"), .native (asc "abc")) =
    Factory.pairKey (.native (asc "abca"), .native (asc "bcd")) := by
  refine (C40_exact_partial _ _ _ _ (.native (asc "abc")) (.native (asc "abcd")) (.native (asc "abca"))
    (.native (asc "bcd")) ⟨.inr ⟨rfl, rfl⟩, by decide⟩ ⟨.inl ⟨rfl, rfl⟩, by decide⟩).mpr (.inr (.inl ⟨asc "a", by decide, by decide, by decide⟩))

end Halo
