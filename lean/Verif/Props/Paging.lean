import Verif.Props.Registry
/-! # Paging through the pairs, exactly (C42) -/

namespace Halo
open _root_.Halo.Spec

/-- Among sorted keys, those above `k ++ [1]`, where `k` is one of them, come after `k`. -/
theorem filter_above {l r : List (Bytes × PairInfoRaw)} {e : Bytes × PairInfoRaw} (hs : SortedKeys (l ++ e :: r)) :
    (l ++ e :: r).filter (fun x => bLt (e.1 ++ [1]) x.1) = r.filter (fun x => bLt (e.1 ++ [1]) x.1) := by
  have h1 := List.pairwise_append.mp hs
  have below : ∀ x : Bytes, bLt x e.1 = true ∨ x = e.1 → bLt (e.1 ++ [1]) x = false := by
    intro x hx
    have : bLt x (e.1 ++ [1]) = true := by
      rcases hx with hx | rfl
      · exact bLt_trans hx (bLt_append_self _ _ _)
      · exact bLt_append_self _ _ _
    exact bLt_asymm this
  rw [List.filter_append, List.filter_cons]
  have e1 : l.filter (fun x => bLt (e.1 ++ [1]) x.1) = [] := by
    rw [List.filter_eq_nil_iff]
    intro x hx
    simp [below x.1 (.inl (h1.2.2 x hx e (by simp)))]
  rw [e1, if_neg (by simp [below e.1 (.inr rfl)]), List.nil_append]

theorem forall₂_sublist {α β : Type} {R : α → β → Prop} {l l' : List α} (hs : l'.Sublist l) : ∀ {m : List β},
    List.Forall₂ R l m → ∃ m', List.Forall₂ R l' m' ∧ m'.Sublist m := by
  induction hs with
  | slnil => intro m h; exact ⟨m, h, List.Sublist.refl _⟩
  | cons a _ ih =>
    intro m h
    cases h with
    | cons h1 h2 => obtain ⟨m', h3, h4⟩ := ih h2; exact ⟨m', h3, h4.cons _⟩
  | cons_cons a _ ih =>
    intro m h
    cases h with
    | cons h1 h2 => obtain ⟨m', h3, h4⟩ := ih h2; exact ⟨_ :: m', .cons h1 h3, h4.cons_cons _⟩

/-- No page of `L` entries ends just below the entry that follows. -/
def NoBreak (L : Nat) (r : List (Bytes × PairInfoRaw)) : Prop :=
  ∀ n e e', r[(n + 1) * L - 1]? = some e → r[(n + 1) * L]? = some e' → bLt (e.1 ++ [1]) e'.1 = true

theorem noBreak_drop {L : Nat} (hL : L ≠ 0) {r : List (Bytes × PairInfoRaw)} : NoBreak L r ↔
    (∀ e e', r[L - 1]? = some e → r[L]? = some e' → bLt (e.1 ++ [1]) e'.1 = true) ∧ NoBreak L (r.drop L) := by
  constructor
  · intro h
    refine ⟨fun e e' h1 h2 => h 0 e e' (by simpa using h1) (by simpa using h2), fun n e e' h1 h2 => h (n + 1) e e' ?_ ?_⟩
    · rw [List.getElem?_drop] at h1
      rw [← h1]; congr 1
      have : (n + 1 + 1) * L = (n + 1) * L + L := by ring
      have : 1 ≤ (n + 1) * L := Nat.mul_pos (by omega) (by omega)
      omega
    · rw [List.getElem?_drop] at h2
      rw [← h2]; congr 1
      ring
  · rintro ⟨h0, h⟩ n e e' h1 h2
    cases n with
    | zero => exact h0 e e' (by simpa using h1) (by simpa using h2)
    | succ n =>
      refine h n e e' ?_ ?_
      · rw [List.getElem?_drop, ← h1]; congr 1
        have : (n + 1 + 1) * L = (n + 1) * L + L := by ring
        have : 1 ≤ (n + 1) * L := Nat.mul_pos (by omega) (by omega)
        omega
      · rw [List.getElem?_drop, ← h2]; congr 1
        ring

/-- Paging lists some of the pairs, in key order and none twice; all of them exactly if no page ends just below a key. -/
theorem pages_exact {c : Chain} (hc : c.Lawful) {w : World} (hw : Reachable c w) {a : Addr} {adm : Option Addr}
    {s : Factory.State} (ha : w.contracts a = some ⟨adm, .factory s⟩) {limit : Option Nat} (hlim : limit ≠ some 0)
    {all : List PairInfo} (hall : List.Forall₂ (fun e p => e.2.toNormal c.api = .ok p) s.pairs all) :
    (∃ l, Pages c.api s limit none l) ∧ ∀ l, Pages c.api s limit none l →
      l.Sublist all ∧ (l = all ↔ NoBreak (min (limit.getD Factory.defaultLimit) Factory.maxLimit) s.pairs) := by
  have hok := (hw.factoriesOk (Q := fun _ => True) (fun _ _ _ _ _ _ _ => trivial)) a adm s ha
  have hL : min (limit.getD Factory.defaultLimit) Factory.maxLimit ≠ 0 := by
    cases limit with
    | none => simp [Factory.defaultLimit, Factory.maxLimit]
    | some n =>
      have : n ≠ 0 := by simpa using hlim
      simp only [Option.getD_some, Factory.maxLimit]
      omega
  generalize hLeq : min (limit.getD Factory.defaultLimit) Factory.maxLimit = L at hL
  let From (start : Option (AssetInfo × AssetInfo)) (r : List (Bytes × PairInfoRaw)) : Prop :=
    start = none ∧ r = s.pairs ∨ ∃ e p, e ∈ s.pairs ∧ e.2.toNormal c.api = .ok p ∧ start = some p.assetInfos ∧
      r = s.pairs.filter (fun x => bLt (e.1 ++ [1]) x.1)
  have hquery : ∀ (start : Option (AssetInfo × AssetInfo)) (r : List (Bytes × PairInfoRaw)) (m : List PairInfo),
      From start r → List.Forall₂ (fun e p => e.2.toNormal c.api = .ok p) r m →
      Factory.queryPairs c.api s start limit = .ok (m.take L) := by
    intro start r m hst hm
    have htake : Factory.toNormalAll c.api (r.take L) = .ok (m.take L) := by
      rw [toNormalAll_iff]
      exact List.forall₂_take L hm
    rcases hst with ⟨rfl, rfl⟩ | ⟨e, p, he, hp, rfl, rfl⟩
    · simp only [Factory.queryPairs, Factory.readPairs, Factory.calcRangeStart, Factory.rangeFrom, hLeq]
      exact htake
    · obtain ⟨n0, n1⟩ := pairInfo_normal hp
      have t0 := toRaw_toNormal hc n0
      have t1 := toRaw_toNormal hc n1
      simp only [Factory.queryPairs, t0, t1, ok_bind, Factory.readPairs, Factory.calcRangeStart, hLeq]
      have hk := (hok.keyed e he).1
      have hk2 : (Factory.sort2 (e.2.assetInfos.1, e.2.assetInfos.2)).1.asBytes ++
          (Factory.sort2 (e.2.assetInfos.1, e.2.assetInfos.2)).2.asBytes ++ [1] = e.1 ++ [1] := by
        rw [hk]; rfl
      simp only [pure, Except.pure, ok_bind]
      rw [Option.map_some, hk2]
      exact htake
  have main : ∀ (N : Nat) (start : Option (AssetInfo × AssetInfo)) (r : List (Bytes × PairInfoRaw)) (m : List PairInfo),
      r.length ≤ N → From start r → List.Forall₂ (fun e p => e.2.toNormal c.api = .ok p) r m →
      (∃ l, Pages c.api s limit start l) ∧ ∀ l, Pages c.api s limit start l → l.Sublist m ∧ (l = m ↔ NoBreak L r) := by
    intro N
    induction N with
    | zero =>
      intro start r m hN hst hm
      have hq := hquery start r m hst hm
      cases r with
      | cons => simp at hN
      | nil =>
        cases hm
        rw [List.take_nil] at hq
        refine ⟨⟨[], .last _ hq⟩, fun l hl => ?_⟩
        cases hl with
        | last => exact ⟨List.Sublist.refl _, by simp [NoBreak]⟩
        | next _ page p rest h hp hr => rw [hq] at h; cases h; cases hp
    | succ N ih =>
      intro start r m hN hst hm
      have hq := hquery start r m hst hm
      cases hr0 : r with
      | nil =>
        subst hr0
        cases hm
        rw [List.take_nil] at hq
        refine ⟨⟨[], .last _ hq⟩, fun l hl => ?_⟩
        cases hl with
        | last => exact ⟨List.Sublist.refl _, by simp [NoBreak]⟩
        | next _ page p rest h hp hr => rw [hq] at h; cases h; cases hp
      | cons e0 r0 =>
        rw [← hr0]
        have hne : m.take L ≠ [] := by
          cases m with
          | nil => rw [hr0] at hm; cases hm
          | cons m0 m1 =>
            cases L with
            | zero => exact absurd rfl hL
            | succ L => simp
        obtain ⟨p, hp⟩ : ∃ p, (m.take L).getLast? = some p := by
          cases h : (m.take L).getLast? with
          | none => rw [List.getLast?_eq_none_iff] at h; exact absurd h hne
          | some p => exact ⟨p, rfl⟩
        obtain ⟨l', e, hl', he⟩ := getLast?_forall₂ (List.forall₂_take L hm) hp
        have h3 : r = l' ++ e :: r.drop L := by
          calc r = r.take L ++ r.drop L := (List.take_append_drop L r).symm
            _ = l' ++ e :: r.drop L := by rw [hl', List.append_assoc]; rfl
        have hsub : r.Sublist s.pairs := by
          rcases hst with ⟨_, rfl⟩ | ⟨_, _, _, _, _, rfl⟩
          · exact List.Sublist.refl _
          · exact List.filter_sublist
        have hsr : SortedKeys r := List.Pairwise.sublist hsub hok.sorted
        have her : e ∈ r := by rw [h3]; simp
        have hab : (r.filter fun x => bLt (e.1 ++ [1]) x.1) = (r.drop L).filter fun x => bLt (e.1 ++ [1]) x.1 := by
          conv_lhs => rw [h3]
          exact filter_above (by rw [← h3]; exact hsr)
        -- the next page starts from here
        have hnext : From (some p.assetInfos) ((r.drop L).filter fun x => bLt (e.1 ++ [1]) x.1) := by
          refine .inr ⟨e, p, hsub.subset her, he, rfl, ?_⟩
          rw [← hab]
          rcases hst with ⟨_, rfl⟩ | ⟨e1, _, _, _, _, rfl⟩
          · rfl
          · rw [List.filter_filter]
            refine List.filter_congr fun x _ => ?_
            have h1 : bLt (e1.1 ++ [1]) e.1 = true := by
              simpa using (List.mem_filter.mp her).2
            by_cases hx : bLt (e.1 ++ [1]) x.1 = true
            · rw [hx, bLt_trans h1 (bLt_trans (bLt_append_self _ _ _) hx)]; rfl
            · simp [hx]
        have hfs : ((r.drop L).filter fun x => bLt (e.1 ++ [1]) x.1).Sublist (r.drop L) := List.filter_sublist
        obtain ⟨m', hm', hms⟩ := forall₂_sublist hfs (List.forall₂_drop L hm)
        have hlen : ((r.drop L).filter fun x => bLt (e.1 ++ [1]) x.1).length ≤ N := by
          have := hfs.length_le
          rw [List.length_drop] at this
          omega
        obtain ⟨⟨rest, hrest⟩, huniq⟩ := ih (some p.assetInfos) _ m' hlen hnext hm'
        refine ⟨⟨_, .next _ _ p _ hq hp hrest⟩, fun l hl => ?_⟩
        cases hl with
        | last _ h => rw [hq] at h; exact absurd (Except.ok.inj h) hne
        | next _ page p2 rest2 h hp2 hr2 =>
          rw [hq] at h
          cases h
          rw [hp] at hp2
          cases hp2
          obtain ⟨u1, u2⟩ := huniq _ hr2
          have htd : m.take L ++ m.drop L = m := List.take_append_drop L m
          refine ⟨by conv_rhs => rw [← htd]
                     exact (List.Sublist.refl _).append (u1.trans hms), ?_⟩
          have h5 : (m.take L ++ rest2 = m) ↔ rest2 = m.drop L := by
            conv_lhs => rhs; rw [← htd]
            exact List.append_right_inj _
          rw [h5, noBreak_drop hL]
          -- what follows the page
          cases hd : r.drop L with
          | nil =>
            have hm0 : m.drop L = [] := by
              have := List.forall₂_drop L hm
              rw [hd] at this
              exact List.forall₂_nil_left_iff.mp this
            rw [hd] at hm'
            simp only [List.filter_nil] at hm'
            cases hm'
            rw [hm0]
            have : rest2 = [] := List.sublist_nil.mp u1
            refine ⟨fun _ => ⟨fun e1 e2 _ h2 => ?_, by simp [NoBreak]⟩, fun _ => this⟩
            have : r[L]? = (r.drop L)[0]? := by rw [List.getElem?_drop]; simp
            rw [this, hd] at h2
            cases h2
          | cons e1 r1 =>
            have hLe : r[L - 1]? = some e := by
              have hl1 : (r.take L).length = L := by
                rw [List.length_take]
                have : (r.drop L).length = r1.length + 1 := by rw [hd]; rfl
                rw [List.length_drop] at this
                omega
              have hl2 : l'.length = L - 1 := by
                rw [hl', List.length_append] at hl1
                simp only [List.length_cons, List.length_nil] at hl1
                omega
              rw [h3, List.getElem?_append_right (by omega), hl2]
              simp
            have hLe1 : r[L]? = some e1 := by
              have : r[L]? = (r.drop L)[0]? := by rw [List.getElem?_drop]; simp
              rw [this, hd]; rfl
            by_cases hgap : bLt (e.1 ++ [1]) e1.1 = true
            · -- nothing is skipped
              have hall' : (r.drop L).filter (fun x => bLt (e.1 ++ [1]) x.1) = r.drop L := by
                rw [List.filter_eq_self]
                intro x hx
                rw [hd] at hx
                have hsd : SortedKeys (e1 :: r1) := by
                  rw [← hd]; exact List.Pairwise.sublist (List.drop_sublist _ _) hsr
                rcases List.mem_cons.mp hx with rfl | hx
                · exact hgap
                · exact bLt_trans hgap ((List.pairwise_cons.mp hsd).1 x hx)
              rw [hall'] at hm' u2
              have : m' = m.drop L := by
                refine hms.eq_of_length ?_
                rw [← hm'.length_eq, (List.forall₂_drop L hm).length_eq]
              rw [← hd, ← this, u2]
              refine ⟨fun h => ⟨fun a b ha hb => ?_, h⟩, fun h => h.2⟩
              rw [hLe] at ha
              rw [hLe1] at hb
              cases ha
              cases hb
              exact hgap
            · constructor
              · intro h
                exfalso
                have l1 := u1.length_le
                rw [h, ← hm'.length_eq, ← (List.forall₂_drop L hm).length_eq] at l1
                have := hfs.eq_of_length_le l1
                have hmem : e1 ∈ (r.drop L).filter fun x => bLt (e.1 ++ [1]) x.1 := by rw [this, hd]; simp
                exact hgap (by simpa using (List.mem_filter.mp hmem).2)
              · intro h
                exact absurd (h.1 e e1 hLe hLe1) hgap
  exact main s.pairs.length none s.pairs all (le_refl _) (.inl ⟨rfl, rfl⟩) hall

/-- C42, what always holds: in every reachable state whose registered pairs can all be displayed, paging with any limit other
than 0 ends, and lists only registered pairs, in key order, none of them twice. -/
theorem C42_sublist_partial {c : Chain} (hc : c.Lawful) {w : World} (hw : Reachable c w) {a : Addr} {adm : Option Addr}
    {s : Factory.State} (ha : w.contracts a = some ⟨adm, .factory s⟩) {limit : Option Nat} (hlim : limit ≠ some 0)
    {all : List PairInfo} (hall : List.Forall₂ (fun e p => e.2.toNormal c.api = .ok p) s.pairs all) :
    (∃ l, Pages c.api s limit none l) ∧ ∀ l, Pages c.api s limit none l → l.Sublist all := by
  obtain ⟨h1, h2⟩ := pages_exact hc hw ha hlim hall
  exact ⟨h1, fun l hl => (h2 l hl).1⟩

/-- C42, exactly: paging lists every registered pair if and only if no key that follows a full page lies just above the last
key of that page. (A page has `limit` entries, 10 if none is given, at most 30.) Missing from C42: the registries that violate
this (`C42_counterexample`). -/
theorem C42_exact_partial {c : Chain} (hc : c.Lawful) {w : World} (hw : Reachable c w) {a : Addr} {adm : Option Addr}
    {s : Factory.State} (ha : w.contracts a = some ⟨adm, .factory s⟩) {limit : Option Nat} (hlim : limit ≠ some 0)
    {all l : List PairInfo} (hall : List.Forall₂ (fun e p => e.2.toNormal c.api = .ok p) s.pairs all)
    (hl : Pages c.api s limit none l) :
    l = all ↔ ∀ n e e', s.pairs[(n + 1) * min (limit.getD 10) 30 - 1]? = some e →
      s.pairs[(n + 1) * min (limit.getD 10) 30]? = some e' → bLt (e.1 ++ [1]) e'.1 = true :=
  ((pages_exact hc hw ha hlim hall).2 l hl).2

/-- C42, exactly: paging lists every registered pair whatever the limit, if and only if no key lies just above another one. -/
theorem C42_every_limit_partial {c : Chain} (hc : c.Lawful) {w : World} (hw : Reachable c w) {a : Addr} {adm : Option Addr}
    {s : Factory.State} (ha : w.contracts a = some ⟨adm, .factory s⟩)
    {all : List PairInfo} (hall : List.Forall₂ (fun e p => e.2.toNormal c.api = .ok p) s.pairs all) :
    (∀ limit ≠ some 0, ∀ l, Pages c.api s limit none l → l = all) ↔ NoGap s.pairs := by
  have hok := (hw.factoriesOk (Q := fun _ => True) (fun _ _ _ _ _ _ _ => trivial)) a adm s ha
  constructor
  · intro h e he e' he' hlt
    obtain ⟨⟨l, hl⟩, _⟩ := pages_exact hc hw ha (limit := some 1) (by simp) hall
    have hb := (C42_exact_partial hc hw ha (by simp) hall hl).mp (h _ (by simp) l hl)
    simp only [Option.getD_some, show min 1 30 = 1 from rfl, Nat.mul_one, Nat.add_sub_cancel] at hb
    -- the key after `e`
    obtain ⟨n, hn, rfl⟩ := List.mem_iff_getElem.mp he
    obtain ⟨n', hn', rfl⟩ := List.mem_iff_getElem.mp he'
    have hpw := List.pairwise_iff_getElem.mp hok.sorted
    have hnn : n < n' := by
      by_contra hcon
      rcases Nat.lt_or_eq_of_le (Nat.le_of_not_lt hcon) with h1 | h1
      · have := bLt_asymm (hpw n' n hn' hn h1)
        rw [hlt] at this; cases this
      · subst h1
        have := bLt_asymm hlt
        rw [hlt] at this; cases this
    have h1 := hb n s.pairs[n] (s.pairs[n + 1]'(by omega)) (by simp) (by simp)
    by_cases hn1 : n + 1 = n'
    · subst hn1; exact h1
    · exact bLt_trans h1 (hpw (n + 1) n' (by omega) hn' (by omega))
  · intro hg limit hlim l hl
    exact (C42_paging_partial hc hw ha hlim hall hg).2 l hl

/-! ## The hypotheses can be met -/

namespace Demo

theorem gapped_reachable : Reachable chain gapped := deployed_reachable.later (later_runs gapped_run)

example := C42_sublist_partial lawful gapped_reachable (facState_eq (a := fac) (by decide +kernel)) (limit := some 1) (by decide)
  (shown_eq (by decide +kernel))

/-- A registry of three pairs whose keys lie just above one another: one page of three lists them all, smaller pages do not. -/
example (l : List PairInfo) (h : Pages chain.api (facState gapped fac) (some 3) none l) : l = shown (facState gapped fac) := by
  refine (C42_exact_partial lawful gapped_reachable (facState_eq (a := fac) (by decide +kernel)) (by decide)
    (shown_eq (by decide +kernel)) h).mpr ?_
  have hlen : (facState gapped fac).pairs.length = 3 := by decide +kernel
  intro n e e' h1 h2
  obtain ⟨hn, _⟩ := List.getElem?_eq_some_iff.mp h2
  simp only [Option.getD_some, show min 3 30 = 3 from rfl] at hn
  omega

example : ¬ ∀ limit ≠ some 0, ∀ l, Pages chain.api (facState gapped fac) limit none l → l = shown (facState gapped fac) := by
  rw [C42_every_limit_partial lawful gapped_reachable (facState_eq (a := fac) (by decide +kernel)) (shown_eq (by decide +kernel))]
  unfold NoGap
  decide +kernel

end Demo
end Halo
