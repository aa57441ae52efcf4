import Verif.Lemmas.FactoryL
/-! # The factory's registry: key order, keys and entries (helper lemmas for C38–C44) -/

namespace Halo

/-! ## The byte order -/

theorem bLt_irrefl (a : Bytes) : bLt a a = false := by
  induction a with
  | nil => rfl
  | cons x t ih => simp [bLt, ih]

theorem bLt_trans {a b c : Bytes} (h1 : bLt a b = true) (h2 : bLt b c = true) : bLt a c = true := by
  induction a generalizing b c with
  | nil =>
    cases b with
    | nil => cases h1
    | cons y b =>
      cases c with
      | nil => cases h2
      | cons z c => rfl
  | cons x a ih =>
    cases b with
    | nil => cases h1
    | cons y b =>
      cases c with
      | nil => cases h2
      | cons z c =>
        simp only [bLt] at h1 h2 ⊢
        by_cases hxy : x < y
        · by_cases hyz : y < z
          · rw [if_pos (UInt8.lt_trans hxy hyz)]
          · rw [if_neg hyz] at h2
            by_cases hzy : z < y
            · rw [if_pos hzy] at h2; cases h2
            · have : y = z := UInt8.le_antisymm (UInt8.not_lt.mp hzy) (UInt8.not_lt.mp hyz)
              subst this
              rw [if_pos hxy]
        · rw [if_neg hxy] at h1
          by_cases hyx : y < x
          · rw [if_pos hyx] at h1; cases h1
          · have : x = y := UInt8.le_antisymm (UInt8.not_lt.mp hyx) (UInt8.not_lt.mp hxy)
            subst this
            rw [if_neg hyx] at h1
            by_cases hyz : x < z
            · rw [if_pos hyz]
            · rw [if_neg hyz] at h2 ⊢
              by_cases hzy : z < x
              · rw [if_pos hzy] at h2; cases h2
              · rw [if_neg hzy] at h2 ⊢
                exact ih h1 h2

theorem bLt_total {a b : Bytes} (h1 : bLt a b = false) (h2 : bLt b a = false) : a = b := by
  induction a generalizing b with
  | nil =>
    cases b with
    | nil => rfl
    | cons => cases h1
  | cons x a ih =>
    cases b with
    | nil => cases h2
    | cons y b =>
      simp only [bLt] at h1 h2
      by_cases hxy : x < y
      · rw [if_pos hxy] at h1; cases h1
      · rw [if_neg hxy] at h1
        by_cases hyx : y < x
        · rw [if_pos hyx] at h2; cases h2
        · rw [if_neg hyx] at h1 h2
          rw [if_neg hxy] at h2
          rw [UInt8.le_antisymm (UInt8.not_lt.mp hyx) (UInt8.not_lt.mp hxy), ih h1 h2]

theorem bLt_asymm {a b : Bytes} (h : bLt a b = true) : bLt b a = false := by
  cases h2 : bLt b a with
  | false => rfl
  | true => have := bLt_trans h h2; rw [bLt_irrefl] at this; cases this

theorem bLt_append_self (k : Bytes) (x : UInt8) (t : Bytes) : bLt k (k ++ x :: t) = true := by
  induction k with
  | nil => rfl
  | cons y k ih => simp [bLt, ih]

/-! ## Ordered maps -/

/-- Keys in ascending order, hence distinct. -/
def SortedKeys {V : Type} (m : List (Bytes × V)) : Prop := m.Pairwise fun x y => bLt x.1 y.1 = true

theorem mem_smapSet {V : Type} {k : Bytes} {v : V} {m : List (Bytes × V)} {e : Bytes × V} (h : e ∈ smapSet k v m) :
    e = (k, v) ∨ e ∈ m := by
  induction m with
  | nil => simp [smapSet] at h; exact .inl h
  | cons hd t ih =>
    obtain ⟨k', v'⟩ := hd
    simp only [smapSet] at h
    split at h
    · rcases List.mem_cons.mp h with h | h
      · exact .inl h
      · exact .inr (List.mem_cons_of_mem _ h)
    · split at h
      · rcases List.mem_cons.mp h with h | h
        · exact .inl h
        · exact .inr h
      · rcases List.mem_cons.mp h with h | h
        · exact .inr (List.mem_cons.mpr (.inl h))
        · rcases ih h with h | h
          · exact .inl h
          · exact .inr (List.mem_cons_of_mem _ h)

theorem SortedKeys.smapSet {V : Type} {k : Bytes} {v : V} {m : List (Bytes × V)} (hm : SortedKeys m) :
    SortedKeys (smapSet k v m) := by
  induction m with
  | nil => simp [Halo.smapSet, SortedKeys]
  | cons hd t ih =>
    obtain ⟨k', v'⟩ := hd
    have hm' := List.pairwise_cons.mp hm
    simp only [Halo.smapSet]
    split
    · rename_i h
      subst h
      exact List.pairwise_cons.mpr hm'
    · rename_i hne
      split
      · rename_i hlt
        refine List.pairwise_cons.mpr ⟨?_, hm⟩
        intro e he
        rcases List.mem_cons.mp he with rfl | he
        · exact hlt
        · exact bLt_trans hlt (hm'.1 e he)
      · rename_i hlt
        refine List.pairwise_cons.mpr ⟨?_, ih hm'.2⟩
        intro e he
        rcases mem_smapSet he with rfl | he
        · cases h : bLt k' k with
          | true => rfl
          | false => exact absurd (bLt_total h (by simpa using hlt)) hne
        · exact hm'.1 e he

theorem get_smapSet {V : Type} {k : Bytes} {v : V} {m : List (Bytes × V)} (hm : SortedKeys m) (k' : Bytes) :
    AMap.get (smapSet k v m) k' = if k' = k then some v else AMap.get m k' := by
  induction m with
  | nil =>
    simp only [smapSet, AMap.get]
    by_cases h : k' = k
    · simp [h]
    · simp [h, Ne.symm h]
  | cons hd t ih =>
    obtain ⟨k2, v2⟩ := hd
    have hm' := List.pairwise_cons.mp hm
    simp only [smapSet]
    by_cases h2 : k2 = k
    · subst h2
      simp only [if_pos, AMap.get]
      by_cases h : k' = k2
      · simp [h]
      · simp [h, Ne.symm h]
    · rw [if_neg h2]
      by_cases hlt : bLt k k2 = true
      · rw [if_pos hlt]
        simp only [AMap.get]
        by_cases h : k' = k
        · simp [h]
        · simp [h, Ne.symm h]
      · rw [if_neg hlt]
        simp only [AMap.get, ih hm'.2]
        by_cases h : k' = k
        · subst h; simp [h2]
        · simp [h]

theorem get_mem {K V : Type} [DecidableEq K] {m : List (K × V)} {k : K} {v : V} (h : AMap.get m k = some v) :
    (k, v) ∈ m := by
  induction m with
  | nil => cases h
  | cons hd t ih =>
    obtain ⟨k', v'⟩ := hd
    simp only [AMap.get] at h
    split at h
    · rename_i hk; subst hk; cases h; simp
    · exact List.mem_cons_of_mem _ (ih h)

theorem SortedKeys.get_of_mem {V : Type} {m : List (Bytes × V)} (hm : SortedKeys m) {k : Bytes} {v : V}
    (h : (k, v) ∈ m) : AMap.get m k = some v := by
  induction m with
  | nil => cases h
  | cons hd t ih =>
    obtain ⟨k', v'⟩ := hd
    have hm' := List.pairwise_cons.mp hm
    rcases List.mem_cons.mp h with h | h
    · cases h; simp [AMap.get]
    · have h1 := hm'.1 _ h
      have h2 : k' ≠ k := by rintro rfl; simp only at h1; rw [bLt_irrefl] at h1; cases h1
      simp [AMap.get, h2, ih hm'.2 h]

/-! ## Invariant of reachable factories -/

namespace Factory

/-- The registry is ordered by key; each key, and the pending key, belongs to the assets stored with it; and the assets
satisfy `Q`. -/
structure RegOk (Q : AssetInfoRaw × AssetInfoRaw → Prop) (s : State) : Prop where
  sorted : SortedKeys s.pairs
  keyed : ∀ e ∈ s.pairs, e.1 = pairKey e.2.assetInfos ∧ Q e.2.assetInfos
  tmp : ∀ t, s.tmp = some t → t.pairKey = pairKey t.assetInfos ∧ Q t.assetInfos

/-- `Q` holds of all pairs of assets that `CreatePair` accepts. -/
def Accepts (api : Api) (Q : AssetInfoRaw × AssetInfoRaw → Prop) : Prop :=
  ∀ (x y : AssetInfo) (r0 r1 : AssetInfoRaw), x ≠ y → x.toRaw api = .ok r0 → y.toRaw api = .ok r1 → Q (r0, r1)

theorem RegOk.eff {Q : AssetInfoRaw × AssetInfoRaw → Prop} {api : Api} (hQ : Accepts api Q) {q : Querier} {me : Addr}
    {s s' : State} {sender : Addr} {m : ExecMsg} {r : Response} (hs : RegOk Q s) (h : Eff api q me s sender m s' r) :
    RegOk Q s' := by
  cases h with
  | update | addNative => exact ⟨hs.sorted, hs.keyed, hs.tmp⟩
  | migrate => exact hs
  | create as req d0 d1 r0 r1 hne h0 h1 hr0 hr1 hnew =>
    refine ⟨hs.sorted, hs.keyed, fun t ht => ?_⟩
    cases ht
    exact ⟨rfl, hQ _ _ _ _ hne hr0 hr1⟩

theorem RegOk.reply {Q : AssetInfoRaw × AssetInfoRaw → Prop} {api : Api} {q : Querier} {s s' : State}
    {created : Option Addr} {r : Response} (hs : RegOk Q s) (h : reply api q s created = .ok (s', r)) : RegOk Q s' := by
  obtain ⟨t, p, info, lt, ca, ht, _, _, _, _, _, rfl⟩ := reply_inv h
  refine ⟨hs.sorted.smapSet, fun e he => ?_, hs.tmp⟩
  rcases mem_smapSet he with rfl | he
  · exact hs.tmp t ht
  · exact hs.keyed e he

end Factory

/-- All factories are in order. -/
def FactoriesOk (Q : AssetInfoRaw × AssetInfoRaw → Prop) (w : World) : Prop :=
  ∀ a adm s, w.contracts a = some ⟨adm, .factory s⟩ → Factory.RegOk Q s

theorem FactoriesOk.step {Q : AssetInfoRaw × AssetInfoRaw → Prop} {c : Chain} (hQ : Factory.Accepts c.api Q) {adv : Adv}
    {n : Nat} {w w' : World} {f : Frame} {fs : List Frame} (hw : FactoriesOk Q w) (h : StepI c adv n w f w' fs) :
    FactoriesOk Q w' := by
  intro a adm s ha
  cases hc : w.contracts a with
  | some k =>
    obtain ⟨adm0, k⟩ := k
    cases k with
    | factory s0 =>
      obtain ⟨k, _, h1, h2, _⟩ := facStep h hc
      rw [ha] at h1
      cases h1
      cases h2 with
      | same => exact hw a _ _ hc
      | exec sender target m funds id w1 s' r hf hme hm hb hr hx => exact (hw a _ _ hc).eff hQ hx
      | reply id created s' r hf hx => exact (hw a _ _ hc).reply hx
    | token s0 | pair s0 | router s0 | other =>
      exfalso
      cases storeStep h with
      | same h => rw [h, hc] at ha; cases ha
      | token me _ _ _ _ _ _ hc1 _ _ hc' ho | pair me _ _ _ hc1 hc' ho | factory me _ _ _ hc1 hc' ho
      | router me _ _ _ hc1 hc' ho =>
        by_cases h1 : a = me
        · subst h1; rw [hc] at hc1; cases hc1; try (rw [hc'] at ha; cases ha)
        · rw [ho a h1, hc] at ha; cases ha
      | inst me adv n adm2 k m sender s2 fs _ hnew hx hc' ho _ =>
        by_cases h1 : a = me
        · subst h1; rw [hc] at hnew; cases hnew
        · rw [ho a h1, hc] at ha; cases ha
      | migrate me admin k s2 hc1 hc' ho =>
        by_cases h1 : a = me
        · subst h1
          rw [hc'] at ha
          rw [hc] at hc1
          simp only [Option.some.injEq, Contract.mk.injEq] at ha hc1
          have h2 := ha.2
          rw [← hc1.2] at h2
          cases k <;> cases h2
        · rw [ho a h1, hc] at ha; cases ha
      | admin me _ _ s2 _ _ hc1 hc' ho =>
        by_cases h1 : a = me
        · subst h1
          rw [hc'] at ha
          rw [hc] at hc1
          simp only [Option.some.injEq, Contract.mk.injEq] at ha hc1
          have h2 := ha.2
          rw [← hc1.2] at h2
          cases h2
        · rw [ho a h1, hc] at ha; cases ha
  | none =>
    cases storeStep h with
    | same h => rw [h, hc] at ha; cases ha
    | token me _ _ _ _ _ _ hc1 _ _ hc' ho | pair me _ _ _ hc1 hc' ho | factory me _ _ _ hc1 hc' ho
    | router me _ _ _ hc1 hc' ho | migrate me _ _ _ hc1 hc' ho | admin me _ _ _ _ _ hc1 hc' ho =>
      by_cases h1 : a = me
      · subst h1; rw [hc] at hc1; cases hc1
      · rw [ho a h1, hc] at ha; cases ha
    | inst me adv n adm2 k m sender s2 fs _ hnew hx hc' ho _ =>
      by_cases h1 : a = me
      · subst h1
        rw [hc'] at ha
        cases ha
        cases k <;> cases m <;>
          simp only [callInstantiate, bind_eq_ok, pure_eq_ok, Prod.mk.injEq, reduceCtorEq, and_false, exists_false,
            false_and] at hx
        · obtain ⟨_, _, ⟨s0, r0⟩, h2, h3, _⟩ := hx
          simp only [Factory.instantiate, bind_eq_ok, pure_eq_ok, Prod.mk.injEq] at h2
          obtain ⟨_, _, rfl, _⟩ := h2
          cases h3
          exact ⟨List.Pairwise.nil, (fun e he => by cases he), (fun t ht => by cases ht)⟩
      · rw [ho a h1, hc] at ha; cases ha

theorem Reachable.factoriesOk {Q : AssetInfoRaw × AssetInfoRaw → Prop} {c : Chain} (hQ : Factory.Accepts c.api Q)
    {w : World} (h : Reachable c w) : FactoriesOk Q w :=
  reachable_induct (P := FactoriesOk Q) (fun w hg a adm s ha => by rw [hg.2 a] at ha; cases ha)
    (fun _ _ _ _ _ _ hp hs => hp.step hQ hs) (fun _ _ hp => hp) (fun _ _ _ hp => hp) h

end Halo
