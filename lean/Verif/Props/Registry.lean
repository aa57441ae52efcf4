import Verif.Lemmas.RegistryL
import Verif.Lemmas.OccursL
import Verif.Lemmas.DemoRun
/-! # The factory's registry of pairs (C39, C40, C42, C43, C44) -/

namespace Halo

/-! ## C39 -/

theorem sort2_comm_bytes (x y : AssetInfoRaw) :
    Factory.pairKey (x, y) = Factory.pairKey (y, x) := by
  unfold Factory.pairKey Factory.sort2
  cases h1 : bLt y.asBytes x.asBytes with
  | true => simp [bLt_asymm h1]
  | false =>
    cases h2 : bLt x.asBytes y.asBytes with
    | true => simp
    | false => simp [bLt_total h1 h2]

/-- C39: a pair query gives the same answer for both orders of the assets, errors included. -/
theorem C39_query_symmetric (api : Api) (s : Factory.State) (x y : AssetInfo) :
    Factory.queryPair api s (x, y) = Factory.queryPair api s (y, x) := by
  unfold Factory.queryPair
  have key : ∀ (i : AssetInfo) (e : Err), i.toRaw api = .error e → e = .addr := by
    intro i e h
    cases i with
    | native d => cases h
    | token t =>
      simp only [AssetInfo.toRaw, Api.canonicalize, okOr] at h
      split at h
      · cases h
      · cases h; rfl
  cases hx : x.toRaw api with
  | error e =>
    have := key _ _ hx
    subst this
    cases hy : y.toRaw api with
    | error e' => rw [key _ _ hy]
    | ok r1 => rfl
  | ok r0 =>
    cases hy : y.toRaw api with
    | error e' => rfl
    | ok r1 =>
      simp only [ok_bind, sort2_comm_bytes r0 r1]

/-- C39: a pair can be created for two assets iff it can be created for the same assets the other way round. -/
theorem C39_create_symmetric (api : Api) (q : Querier) (self : Addr) (s : Factory.State) (x y : AssetInfo)
    (req : Requirements) :
    (∃ r, Factory.createPair api q self s (x, y) req = .ok r) ↔
      ∃ r, Factory.createPair api q self s (y, x) req = .ok r := by
  have key : ∀ x y : AssetInfo, (∃ r, Factory.createPair api q self s (x, y) req = .ok r) →
      ∃ r, Factory.createPair api q self s (y, x) req = .ok r := by
    rintro x y ⟨r, h⟩
    simp only [Factory.createPair, bind_eq_ok, require_eq_ok, pure_eq_ok, Factory.decimalsOr_eq_ok] at h ⊢
    obtain ⟨_, h1, d0, h2, d1, h3, r0, h4, r1, h5, _, h6, rfl⟩ := h
    rw [sort2_comm_bytes] at h6
    exact ⟨_, (), fun h => h1 h.symm, d1, h3, d0, h2, r1, h5, r0, h4, (), h6, rfl⟩
  exact ⟨key x y, key y x⟩

/-- C39: "pair already exists" (error 44) does not depend on the order of the assets either. -/
theorem C39_duplicate_symmetric (api : Api) (q : Querier) (self : Addr) (s : Factory.State) (x y : AssetInfo)
    (req : Requirements) :
    Factory.createPair api q self s (x, y) req = .error (.generic 44) ↔
      Factory.createPair api q self s (y, x) req = .error (.generic 44) := by
  have key : ∀ x y : AssetInfo, Factory.createPair api q self s (x, y) req = .error (.generic 44) →
      Factory.createPair api q self s (y, x) req = .error (.generic 44) := by
    intro x y h
    have hq : ∀ (r : R Nat) (k : Nat), k ≠ 44 → ∀ e, Factory.decimalsOr r (.generic k) = .error e → e ≠ .generic 44 := by
      intro r k hk e he
      unfold Factory.decimalsOr at he
      split at he
      · cases he
      · cases he; simpa using hk
    have hraw : ∀ (i : AssetInfo) (e : Err), i.toRaw api = .error e → e = .addr := by
      intro i e h
      cases i with
      | native d => cases h
      | token t =>
        simp only [AssetInfo.toRaw, Api.canonicalize, okOr] at h
        split at h
        · cases h
        · cases h; rfl
    have e1 : ¬ x = y := by
      rintro rfl
      simp [Factory.createPair, require] at h
    have e1' : ¬ y = x := fun h => e1 h.symm
    unfold Factory.createPair at h ⊢
    simp only [require, e1, e1', not_false_eq_true, if_true, ok_bind] at h ⊢
    cases h2 : Factory.decimalsOr (x.queryDecimals q self) (.generic 42) with
    | error e => rw [h2] at h; cases h; exact absurd rfl (hq _ 42 (by decide) _ h2)
    | ok d0 =>
      rw [h2] at h
      cases h3 : Factory.decimalsOr (y.queryDecimals q self) (.generic 43) with
      | error e => rw [ok_bind, h3] at h; cases h; exact absurd rfl (hq _ 43 (by decide) _ h3)
      | ok d1 =>
        rw [ok_bind, h3, ok_bind] at h
        rw [Factory.decimalsOr_eq_ok] at h2 h3
        rw [Factory.decimalsOr_eq_ok.mpr h3, Factory.decimalsOr_eq_ok.mpr h2, ok_bind, ok_bind]
        cases h4 : x.toRaw api with
        | error e => rw [h4] at h; cases h; cases hraw _ _ h4
        | ok r0 =>
          cases h5 : y.toRaw api with
          | error e => rw [h4, ok_bind, h5] at h; cases h; cases hraw _ _ h5
          | ok r1 =>
            rw [h4, ok_bind, h5, ok_bind] at h
            rw [ok_bind, ok_bind]
            simp only [sort2_comm_bytes r1 r0]
            split at h
            · cases h
            · rename_i hn
              simp [hn]
  exact ⟨key x y, key y x⟩

/-! ## C40 -/

/-- The byte strings of `x` and `y` do not overlap: if one is the beginning of the other then they are the same
asset. Holds for two contract addresses (same length), and for a denom and an address neither of which begins with the
other. -/
def Apart (x y : AssetInfoRaw) : Prop := x.asBytes <+: y.asBytes ∨ y.asBytes <+: x.asBytes → x = y

/-- **C40 (partial).** Two pairs of assets with the same registry key are the same pair, if no asset of the one begins
with an asset of the other. Missing: keys are plain concatenations, so it is false in general (`C40_counterexample`). -/
theorem C40_key_partial (x y u v : AssetInfoRaw) (hxu : Apart x u) (hxv : Apart x v) (hyu : Apart y u) (hyv : Apart y v)
    (h : Factory.pairKey (x, y) = Factory.pairKey (u, v)) : (x = u ∧ y = v) ∨ (x = v ∧ y = u) := by
  have key : ∀ x y u v : AssetInfoRaw, Apart x u → Apart y v → x.asBytes ++ y.asBytes = u.asBytes ++ v.asBytes →
      x = u ∧ y = v := by
    intro x y u v h1 h2 h
    have hx : x = u := by
      refine h1 ?_
      rcases List.append_eq_append_iff.mp h with ⟨t, h, _⟩ | ⟨t, h, _⟩
      · exact .inl ⟨t, h.symm⟩
      · exact .inr ⟨t, h.symm⟩
    subst hx
    rw [List.append_cancel_left_eq] at h
    exact ⟨rfl, h2 (.inl ⟨[], by rw [List.append_nil]; exact h⟩)⟩
  unfold Factory.pairKey Factory.sort2 at h
  simp only at h
  by_cases h1 : bLt y.asBytes x.asBytes = true <;> by_cases h2 : bLt v.asBytes u.asBytes = true
  · rw [if_pos h1, if_pos h2] at h
    exact .inl ((key y x v u hyv hxu h).symm)
  · rw [if_pos h1, if_neg h2] at h
    exact .inr ((key y x u v hyu hxv h).symm)
  · rw [if_neg h1, if_pos h2] at h
    exact .inr (key x y v u hxv hyu h)
  · rw [if_neg h1, if_neg h2] at h
    exact .inl (key x y u v hxu hyv h)

theorem toRaw_toNormal {c : Chain} (hc : c.Lawful) {r : AssetInfoRaw} {i : AssetInfo}
    (h : r.toNormal c.api = .ok i) : i.toRaw c.api = .ok r := by
  cases r with
  | native d => cases h; rfl
  | token b =>
    simp only [AssetInfoRaw.toNormal, Api.humanize, bind_eq_ok, okOr_eq_ok, pure_eq_ok] at h
    obtain ⟨t, h1, rfl⟩ := h
    simp [AssetInfo.toRaw, Api.canonicalize, hc.canon_human _ _ h1]

theorem pairInfo_normal {c : Chain} {p : PairInfoRaw} {info : PairInfo} (h : p.toNormal c.api = .ok info) :
    p.assetInfos.1.toNormal c.api = .ok info.assetInfos.1 ∧ p.assetInfos.2.toNormal c.api = .ok info.assetInfos.2 := by
  simp only [PairInfoRaw.toNormal, bind_eq_ok, pure_eq_ok] at h
  obtain ⟨_, _, _, _, a0, h0, a1, h1, rfl⟩ := h
  exact ⟨h0, h1⟩

/-- **C40 (partial).** In every reachable state, a pair query for two assets returns a pair of these assets (in some
order, up to the spelling of addresses), if no queried asset begins with a returned one or vice versa. -/
theorem C40_lookup_partial {c : Chain} (hc : c.Lawful) {w : World} (hw : Reachable c w) {a : Addr} {adm : Option Addr}
    {s : Factory.State} (ha : w.contracts a = some ⟨adm, .factory s⟩) {x y : AssetInfo} {info : PairInfo}
    (hq : Factory.queryPair c.api s (x, y) = .ok info)
    (hapart : ∀ z ∈ [x, y], ∀ i ∈ [info.assetInfos.1, info.assetInfos.2], ∀ r r', z.toRaw c.api = .ok r →
      i.toRaw c.api = .ok r' → Apart r r') :
    (info.assetInfos.1.toRaw c.api = x.toRaw c.api ∧ info.assetInfos.2.toRaw c.api = y.toRaw c.api) ∨
      (info.assetInfos.1.toRaw c.api = y.toRaw c.api ∧ info.assetInfos.2.toRaw c.api = x.toRaw c.api) := by
  simp only [Factory.queryPair, bind_eq_ok, okOr_eq_ok] at hq
  obtain ⟨r0, h0, r1, h1, p, hp, hn⟩ := hq
  obtain ⟨n0, n1⟩ := pairInfo_normal hn
  have t0 := toRaw_toNormal hc n0
  have t1 := toRaw_toNormal hc n1
  have hk := ((hw.factoriesOk (Q := fun _ => True) (fun _ _ _ _ _ _ _ => trivial)) a adm s ha).keyed _ (get_mem hp)
  have := C40_key_partial r0 r1 p.assetInfos.1 p.assetInfos.2 (hapart x (by simp) _ (by simp) _ _ h0 t0)
    (hapart x (by simp) _ (by simp) _ _ h0 t1) (hapart y (by simp) _ (by simp) _ _ h1 t0)
    (hapart y (by simp) _ (by simp) _ _ h1 t1) hk.1
  rw [t0, t1, h0, h1]
  rcases this with ⟨rfl, rfl⟩ | ⟨rfl, rfl⟩
  · exact .inl ⟨rfl, rfl⟩
  · exact .inr ⟨rfl, rfl⟩

/-- If all canonical addresses have the same length, two token assets are always apart. -/
theorem apart_tokens {n : Nat} {b b' : Bytes} (h : b.length = n) (h' : b'.length = n) :
    Apart (.token b) (.token b') := by
  rintro (h1 | h1)
  · exact congrArg _ (List.IsPrefix.eq_of_length h1 (h.trans h'.symm))
  · exact congrArg _ (List.IsPrefix.eq_of_length h1 (h'.trans h.symm)).symm

/-! ## C42, C43 -/

/-- C43: a page has at most `min (limit or 10) 30` entries. -/
theorem C43_page_size {api : Api} {s : Factory.State} {start : Option (AssetInfo × AssetInfo)} {limit : Option Nat}
    {page : List PairInfo} (h : Factory.queryPairs api s start limit = .ok page) :
    page.length ≤ min (limit.getD 10) 30 := by
  unfold Factory.queryPairs at h
  simp only [bind_eq_ok] at h
  obtain ⟨sa, _, h⟩ := h
  have hlen : ∀ (l : List (Bytes × PairInfoRaw)) (ps : List PairInfo), Factory.toNormalAll api l = .ok ps →
      ps.length = l.length := by
    intro l
    induction l with
    | nil => intro ps h; cases h; rfl
    | cons e t ih =>
      intro ps h
      simp only [Factory.toNormalAll, bind_eq_ok, pure_eq_ok] at h
      obtain ⟨p, _, qs, h2, rfl⟩ := h
      simp [ih _ h2]
  unfold Factory.readPairs at h
  rw [hlen _ _ h]
  exact (List.length_take_le _ _)

theorem toNormalAll_iff {api : Api} {l : List (Bytes × PairInfoRaw)} {ps : List PairInfo} :
    Factory.toNormalAll api l = .ok ps ↔ List.Forall₂ (fun e p => e.2.toNormal api = .ok p) l ps := by
  induction l generalizing ps with
  | nil =>
    simp only [Factory.toNormalAll, Except.ok.injEq, List.forall₂_nil_left_iff]
    exact eq_comm
  | cons e t ih =>
    obtain ⟨k, v⟩ := e
    simp only [Factory.toNormalAll, bind_eq_ok, pure_eq_ok, List.forall₂_cons_left_iff, ih]
    constructor
    · rintro ⟨p, h1, qs, h2, rfl⟩
      exact ⟨p, qs, h1, h2, rfl⟩
    · rintro ⟨p, qs, h1, h2, rfl⟩
      exact ⟨p, h1, qs, h2, rfl⟩

/-- C43: the first page is full, if there are enough pairs. -/
theorem C43_first_page {api : Api} {s : Factory.State} {limit : Option Nat} {page : List PairInfo}
    (h : Factory.queryPairs api s none limit = .ok page) :
    page.length = min (min (limit.getD 10) 30) s.pairs.length := by
  simp only [Factory.queryPairs, bind_eq_ok, pure_eq_ok] at h
  obtain ⟨sa, rfl, h⟩ := h
  unfold Factory.readPairs at h
  rw [toNormalAll_iff] at h
  rw [← h.length_eq, List.length_take]
  rfl

/-- C43: a page after a given pair is full, if enough registered keys lie above the start of the page. -/
theorem C43_later_page {api : Api} {s : Factory.State} {x y : AssetInfo} {r0 r1 : AssetInfoRaw} {limit : Option Nat}
    {page : List PairInfo} (h : Factory.queryPairs api s (some (x, y)) limit = .ok page)
    (hx : x.toRaw api = .ok r0) (hy : y.toRaw api = .ok r1) {l : List (Bytes × PairInfoRaw)} (hl : l.Sublist s.pairs)
    (habove : ∀ e ∈ l, bLt (Factory.pairKey (r0, r1) ++ [1]) e.1 = true) (hn : min (limit.getD 10) 30 ≤ l.length) :
    page.length = min (limit.getD 10) 30 := by
  simp only [Factory.queryPairs, hx, hy, ok_bind, pure, Except.pure] at h
  unfold Factory.readPairs at h
  rw [toNormalAll_iff] at h
  rw [← h.length_eq, List.length_take]
  refine min_eq_left (le_trans hn ?_)
  simp only [Factory.calcRangeStart, Option.map_some, Factory.rangeFrom]
  have h2 := hl.filter (fun e => bLt ((Factory.sort2 (r0, r1)).1.asBytes ++ (Factory.sort2 (r0, r1)).2.asBytes ++ [1]) e.1)
  have h3 : l.filter (fun e => bLt ((Factory.sort2 (r0, r1)).1.asBytes ++ (Factory.sort2 (r0, r1)).2.asBytes ++ [1]) e.1)
      = l := List.filter_eq_self.mpr (fun e he => habove e he)
  rw [h3] at h2
  exact h2.length_le

/-- Following the pages of a `Pairs` query: each query starts after the last pair of the page before, until a page is
empty; all pages together. -/
inductive Pages (api : Api) (s : Factory.State) (limit : Option Nat) :
    Option (AssetInfo × AssetInfo) → List PairInfo → Prop where
  | last (start : Option (AssetInfo × AssetInfo)) (h : Factory.queryPairs api s start limit = .ok []) :
      Pages api s limit start []
  | next (start : Option (AssetInfo × AssetInfo)) (page : List PairInfo) (p : PairInfo) (rest : List PairInfo)
      (h : Factory.queryPairs api s start limit = .ok page) (hp : page.getLast? = some p)
      (hr : Pages api s limit (some p.assetInfos) rest) : Pages api s limit start (page ++ rest)

/-- No key of the registry lies just above another one, i.e. no key `k'` satisfies `k < k' ≤ k ++ [1]`. -/
def NoGap (pairs : List (Bytes × PairInfoRaw)) : Prop :=
  ∀ e ∈ pairs, ∀ e' ∈ pairs, bLt e.1 e'.1 = true → bLt (e.1 ++ [1]) e'.1 = true

private theorem filter_after {l r : List (Bytes × PairInfoRaw)} {e : Bytes × PairInfoRaw}
    (hs : SortedKeys (l ++ e :: r)) (hg : NoGap (l ++ e :: r)) :
    (l ++ e :: r).filter (fun x => bLt (e.1 ++ [1]) x.1) = r := by
  have h1 := List.pairwise_append.mp hs
  have h2 := List.pairwise_cons.mp h1.2.1
  have below : ∀ x : Bytes, bLt x e.1 = true ∨ x = e.1 → bLt (e.1 ++ [1]) x = false := by
    intro x hx
    have : bLt x (e.1 ++ [1]) = true := by
      rcases hx with hx | rfl
      · exact bLt_trans hx (bLt_append_self _ _ _)
      · exact bLt_append_self _ _ _
    exact bLt_asymm this
  rw [List.filter_append, List.filter_cons]
  have e1 : l.filter (fun x => bLt (e.1 ++ [1]) x.1) = [] := by
    rw [List.filter_eq_nil_iff]
    intro x hx
    simp [below x.1 (.inl (h1.2.2 x hx e (by simp)))]
  rw [e1, if_neg (by simp [below e.1 (.inr rfl)]), List.nil_append, List.filter_eq_self]
  intro x hx
  exact hg e (by simp) x (by simp [hx]) (h2.1 x hx)

theorem getLast?_forall₂ {α β : Type} {R : α → β → Prop} {l : List α} {m : List β} (h : List.Forall₂ R l m)
    {b : β} (hb : m.getLast? = some b) : ∃ l' a, l = l' ++ [a] ∧ R a b := by
  induction h with
  | nil => cases hb
  | cons hr ht ih =>
    rename_i a b' l m
    cases ht with
    | nil => simp at hb; subst hb; exact ⟨[], a, rfl, hr⟩
    | cons h2 ht2 =>
      rw [List.getLast?_cons_cons] at hb
      obtain ⟨l', a', h3, h4⟩ := ih hb
      exact ⟨a :: l', a', by rw [h3]; rfl, h4⟩

/-- **C42 (partial).** In every reachable state whose registered pairs can all be displayed, paging — with any limit
other than 0 — ends, and yields every registered pair exactly once, in key order; provided no key lies just above
another one. Missing: such keys, for which it is false (`C42_counterexample`). -/
theorem C42_paging_partial {c : Chain} (hc : c.Lawful) {w : World} (hw : Reachable c w) {a : Addr} {adm : Option Addr}
    {s : Factory.State} (ha : w.contracts a = some ⟨adm, .factory s⟩) {limit : Option Nat} (hlim : limit ≠ some 0)
    {all : List PairInfo} (hall : List.Forall₂ (fun e p => e.2.toNormal c.api = .ok p) s.pairs all)
    (hg : NoGap s.pairs) :
    (∃ l, Pages c.api s limit none l) ∧ ∀ l, Pages c.api s limit none l → l = all := by
  have hok := (hw.factoriesOk (Q := fun _ => True) (fun _ _ _ _ _ _ _ => trivial)) a adm s ha
  have hL : min (limit.getD Factory.defaultLimit) Factory.maxLimit ≠ 0 := by
    cases limit with
    | none => simp [Factory.defaultLimit, Factory.maxLimit]
    | some n =>
      have : n ≠ 0 := by simpa using hlim
      simp only [Option.getD_some, Factory.maxLimit]
      omega
  generalize hLeq : min (limit.getD Factory.defaultLimit) Factory.maxLimit = L at hL
  -- a query whose range is `r` returns the first `L` of `r`
  have hquery : ∀ (start : Option (AssetInfo × AssetInfo)) (r : List (Bytes × PairInfoRaw)) (m : List PairInfo),
      (start = none ∧ r = s.pairs ∨ ∃ l e p, s.pairs = l ++ e :: r ∧ e.2.toNormal c.api = .ok p ∧
        start = some p.assetInfos) →
      List.Forall₂ (fun e p => e.2.toNormal c.api = .ok p) r m →
      Factory.queryPairs c.api s start limit = .ok (m.take L) := by
    intro start r m hst hm
    have htake : Factory.toNormalAll c.api (r.take L) = .ok (m.take L) := by
      rw [toNormalAll_iff]
      exact List.forall₂_take L hm
    rcases hst with ⟨rfl, rfl⟩ | ⟨l, e, p, hsp, hp, rfl⟩
    · simp only [Factory.queryPairs, Factory.readPairs, Factory.calcRangeStart, Factory.rangeFrom, hLeq]
      exact htake
    · obtain ⟨n0, n1⟩ := pairInfo_normal hp
      have t0 := toRaw_toNormal hc n0
      have t1 := toRaw_toNormal hc n1
      simp only [Factory.queryPairs, t0, t1, ok_bind, Factory.readPairs, Factory.calcRangeStart, hLeq]
      have hk := (hok.keyed e (by rw [hsp]; simp)).1
      have hk2 : (Factory.sort2 (e.2.assetInfos.1, e.2.assetInfos.2)).1.asBytes ++
          (Factory.sort2 (e.2.assetInfos.1, e.2.assetInfos.2)).2.asBytes ++ [1] = e.1 ++ [1] := by
        rw [hk]; rfl
      have hf : Factory.rangeFrom s.pairs (some (e.1 ++ [1])) = r := by
        unfold Factory.rangeFrom
        simp only
        rw [hsp]
        exact filter_after (by rw [← hsp]; exact hok.sorted) (by rw [← hsp]; exact hg)
      simp only [pure, Except.pure, ok_bind]
      rw [Option.map_some, hk2, hf]
      exact htake
  -- the main induction over the remaining pairs
  have main : ∀ (N : Nat) (start : Option (AssetInfo × AssetInfo)) (r : List (Bytes × PairInfoRaw)) (m : List PairInfo),
      r.length ≤ N →
      (start = none ∧ r = s.pairs ∨ ∃ l e p, s.pairs = l ++ e :: r ∧ e.2.toNormal c.api = .ok p ∧
        start = some p.assetInfos) →
      List.Forall₂ (fun e p => e.2.toNormal c.api = .ok p) r m →
      (∃ l, Pages c.api s limit start l) ∧ ∀ l, Pages c.api s limit start l → l = m := by
    intro N
    induction N with
    | zero =>
      intro start r m hN hst hm
      have hq := hquery start r m hst hm
      cases r with
      | cons => simp at hN
      | nil =>
        cases hm
        rw [List.take_nil] at hq
        refine ⟨⟨[], .last _ hq⟩, fun l hl => ?_⟩
        cases hl with
        | last => rfl
        | next _ page p rest h hp hr => rw [hq] at h; cases h; cases hp
    | succ N ih =>
      intro start r m hN hst hm
      have hq := hquery start r m hst hm
      cases hr0 : r with
      | nil =>
        subst hr0
        cases hm
        rw [List.take_nil] at hq
        refine ⟨⟨[], .last _ hq⟩, fun l hl => ?_⟩
        cases hl with
        | last => rfl
        | next _ page p rest h hp hr => rw [hq] at h; cases h; cases hp
      | cons e0 r0 =>
        have hne : m.take L ≠ [] := by
          cases m with
          | nil => rw [hr0] at hm; cases hm
          | cons m0 m1 =>
            cases L with
            | zero => exact absurd rfl hL
            | succ L => simp
        obtain ⟨p, hp⟩ : ∃ p, (m.take L).getLast? = some p := by
          cases h : (m.take L).getLast? with
          | none => rw [List.getLast?_eq_none_iff] at h; exact absurd h hne
          | some p => exact ⟨p, rfl⟩
        obtain ⟨l', e, hl', he⟩ := getLast?_forall₂ (List.forall₂_take L hm) hp
        have hsplit : ∃ l2, s.pairs = l2 ++ e :: r.drop L := by
          have h3 : r = l' ++ e :: r.drop L := by
            calc r = r.take L ++ r.drop L := (List.take_append_drop L r).symm
              _ = l' ++ e :: r.drop L := by rw [hl', List.append_assoc]; rfl
          rcases hst with ⟨_, h4⟩ | ⟨l, e', p', h4, _, _⟩
          · exact ⟨l', by rw [← h4]; exact h3⟩
          · exact ⟨l ++ e' :: l', by rw [h4, List.append_assoc, List.cons_append, ← h3]⟩
        obtain ⟨l2, hl2⟩ := hsplit
        have hlen : (r.drop L).length ≤ N := by
          rw [List.length_drop]; omega
        obtain ⟨⟨rest, hrest⟩, huniq⟩ := ih (some p.assetInfos) (r.drop L) (m.drop L) hlen
          (.inr ⟨l2, e, p, hl2, he, rfl⟩) (List.forall₂_drop L hm)
        refine ⟨⟨_, .next _ _ p _ hq hp hrest⟩, fun l hl => ?_⟩
        cases hl with
        | last _ h => rw [hq] at h; exact absurd (Except.ok.inj h) hne
        | next _ page p2 rest2 h hp2 hr2 =>
          rw [hq] at h
          cases h
          rw [hp] at hp2
          cases hp2
          rw [huniq _ hr2, List.take_append_drop]
  exact main s.pairs.length none s.pairs all (le_refl _) (.inl ⟨rfl, rfl⟩) hall

/-- Keys of the same length leave no gap. -/
theorem noGap_of_length {pairs : List (Bytes × PairInfoRaw)} {n : Nat} (h : ∀ e ∈ pairs, e.1.length = n) :
    NoGap pairs := by
  have key : ∀ a b : Bytes, a.length = b.length → bLt a b = true → bLt (a ++ [1]) b = true := by
    intro a
    induction a with
    | nil =>
      intro b hl hlt
      cases b with
      | nil => cases hlt
      | cons => simp at hl
    | cons x a ih =>
      intro b hl hlt
      cases b with
      | nil => cases hlt
      | cons y b =>
        simp only [bLt, List.cons_append] at hlt ⊢
        split
        · rfl
        · rename_i hxy
          rw [if_neg hxy] at hlt
          split
          · rename_i hyx; rw [if_pos hyx] at hlt; cases hlt
          · rename_i hyx
            rw [if_neg hyx] at hlt
            exact ih b (by simpa using hl) hlt
  intro e he e' he' hlt
  exact key _ _ ((h e he).trans (h e' he').symm) hlt

/-! ## C44 -/

/-- **C44 (partial).** `CreatePair` fails if the two assets are the same asset spelled the same way; if both addresses
are in normal form, the assets of a created pair are different. Missing: other spellings of an address, for which it is
false (`C44_counterexample`). -/
theorem C44_normal_form_partial {api : Api} {q : Querier} {me : Addr} {s s' : Factory.State} {sender : Addr}
    {x y : AssetInfo} {req : Requirements} {r : Response}
    (h : Factory.execute api q me s sender (.createPair (x, y) req) = .ok (s', r))
    (hx : ∀ t, x = .token t → api.validate t = .ok t) (hy : ∀ t, y = .token t → api.validate t = .ok t) :
    ∃ r0 r1, x.toRaw api = .ok r0 ∧ y.toRaw api = .ok r1 ∧ r0 ≠ r1 := by
  cases Factory.execute_inv h with
  | create _ _ d0 d1 r0 r1 hne h0 h1 hr0 hr1 hnew =>
    refine ⟨r0, r1, hr0, hr1, ?_⟩
    rintro rfl
    apply hne
    show x = y
    cases x with
    | native d =>
      cases hr0
      cases y with
      | native d' => cases hr1; rfl
      | token t =>
        simp only [AssetInfo.toRaw, bind_eq_ok, pure_eq_ok] at hr1
        obtain ⟨_, _, h⟩ := hr1
        cases h
    | token t =>
      simp only [AssetInfo.toRaw, Api.canonicalize, bind_eq_ok, okOr_eq_ok, pure_eq_ok] at hr0
      obtain ⟨b, h2, rfl⟩ := hr0
      cases y with
      | native d' => cases hr1
      | token t' =>
        simp only [AssetInfo.toRaw, Api.canonicalize, bind_eq_ok, okOr_eq_ok, pure_eq_ok] at hr1
        obtain ⟨b', h3, h4⟩ := hr1
        cases h4
        have v1 := validate_eq_ok.mp (hx t rfl)
        have v2 := validate_eq_ok.mp (hy t' rfl)
        obtain ⟨_, b1, v1, v1'⟩ := v1
        obtain ⟨_, b2, v2, v2'⟩ := v2
        rw [h2] at v1
        cases v1
        rw [h3] at v2
        cases v2
        rw [v1'] at v2'
        cases v2'
        rfl

/-- **C44 (partial).** On a chain where every address has a single spelling, every registered pair joins two different
assets. -/
theorem C44_registry_partial {c : Chain} (hinj : ∀ x y b, c.api.canon x = some b → c.api.canon y = some b → x = y)
    {w : World} (hw : Reachable c w) {a : Addr} {adm : Option Addr} {s : Factory.State}
    (ha : w.contracts a = some ⟨adm, .factory s⟩) {e : Bytes × PairInfoRaw} (he : e ∈ s.pairs) :
    e.2.assetInfos.1 ≠ e.2.assetInfos.2 := by
  have hQ : Factory.Accepts c.api (fun p => p.1 ≠ p.2) := by
    intro x y r0 r1 hne h0 h1 he
    simp only at he
    subst he
    apply hne
    cases x with
    | native d =>
      cases h0
      cases y with
      | native d' => cases h1; rfl
      | token t =>
        simp only [AssetInfo.toRaw, bind_eq_ok, pure_eq_ok] at h1
        obtain ⟨_, _, h⟩ := h1
        cases h
    | token t =>
      simp only [AssetInfo.toRaw, Api.canonicalize, bind_eq_ok, okOr_eq_ok, pure_eq_ok] at h0
      obtain ⟨b, h2, rfl⟩ := h0
      cases y with
      | native d' => cases h1
      | token t' =>
        simp only [AssetInfo.toRaw, Api.canonicalize, bind_eq_ok, okOr_eq_ok, pure_eq_ok] at h1
        obtain ⟨b', h3, h4⟩ := h1
        cases h4
        rw [hinj _ _ _ h2 h3]
  exact ((hw.factoriesOk hQ a adm s ha).keyed e he).2

/-! ## Examples and counterexamples -/

namespace Demo

/-- The factory stored at an address. -/
def facAt (w : World) (a : Addr) : Option (Option Addr × Factory.State) :=
  match w.contracts a with
  | some ⟨adm, .factory s⟩ => some (adm, s)
  | _ => none

theorem facAt_eq {w : World} {a : Addr} {p : Option Addr × Factory.State} (h : facAt w a = some p) :
    w.contracts a = some ⟨p.1, .factory p.2⟩ := by
  unfold facAt at h
  split at h
  · rename_i h2
    cases h
    exact h2
  · cases h

/-- The result of a computation, if it has one. -/
def val {α : Type} : R α → Option α
  | .ok a => some a
  | .error _ => none

theorem val_eq {α : Type} {r : R α} {a : α} (h : val r = some a) : r = .ok a := by
  cases r with
  | ok => cases h; rfl
  | error => cases h

/-- The storage of the factory of the demo. -/
def facState (w : World) (a : Addr) : Factory.State := ((facAt w a).getD (none, ⟨⟨[], 0, 0⟩, none, [], []⟩)).2

theorem facState_eq {w : World} {a : Addr} (h : ((facAt w a).map fun p => p.1.isNone) = some true) :
    w.contracts a = some ⟨none, .factory (facState w a)⟩ := by
  unfold facState
  cases hk : facAt w a with
  | none => rw [hk] at h; cases h
  | some p =>
    have := facAt_eq hk
    rw [hk] at h
    obtain ⟨adm, st⟩ := p
    cases adm with
    | none => exact this
    | some => cases h

/-- All registered pairs, displayed. -/
def shown (s : Factory.State) : List PairInfo := (val (Factory.toNormalAll chain.api s.pairs)).getD []

theorem shown_eq {s : Factory.State} (h : (val (Factory.toNormalAll chain.api s.pairs)).isSome = true) :
    List.Forall₂ (fun e p => e.2.toNormal chain.api = .ok p) s.pairs (shown s) := by
  unfold shown
  obtain ⟨l, hl⟩ := Option.isSome_iff_exists.mp h
  rw [hl]
  exact toNormalAll_iff.mp (val_eq hl)

/-- The demo's registry has two pairs, and paging by one lists both. -/
example : (∃ l, Pages chain.api (facState deployed fac) (some 1) none l) ∧
    ∀ l, Pages chain.api (facState deployed fac) (some 1) none l → l = shown (facState deployed fac) :=
  C42_paging_partial lawful deployed_reachable (facState_eq (by decide +kernel)) (by decide)
    (shown_eq (by decide +kernel)) (by unfold NoGap; decide +kernel)
example : (shown (facState deployed fac)).map PairInfo.contractAddr = [pAB, pBC] := by decide +kernel

/-- The same registry after a pair of A and C is created; in this chain addresses have different lengths. -/
def gapMsgs : List CosmosMsg := [createMsg tA tC]
def gapped : World := worldOf (runs gapMsgs deployed)
theorem gapped_run : runs gapMsgs deployed = .ok gapped := worldOf_eq (by decide +kernel)

/-- A genesis with many native coins. -/
def genesis2 : World := { genesis with bank := fun _ => [(user, 1000)] }
def fac2 : Addr := chain.addrOf 0
/-- "abca", "bcd", "abc" and "abcd". -/
def dn : List Denom := [[97, 98, 99, 97], [98, 99, 100], [97, 98, 99], [97, 98, 99, 100]]

/-- A pair of "abca" and "bcd". -/
def collide : List CosmosMsg :=
  [facMsg, .bankSend fac2 [⟨[97, 98, 99, 97], 1⟩, ⟨[98, 99, 100], 1⟩],
   .exec fac2 (.addNativeTokenDecimals [97, 98, 99, 97] 6) [], .exec fac2 (.addNativeTokenDecimals [98, 99, 100] 6) [],
   .inst none 1 (.token ⟨[97, 97, 97], [97, 97, 97], 6, [], none⟩) [],
   .exec fac2 (.createPair (.native [97, 98, 99, 97], .native [98, 99, 100]) ⟨[user], 10, 10⟩) []]
def collided : World := worldOf (runs collide genesis2)
theorem collided_run : runs collide genesis2 = .ok collided := worldOf_eq (by decide +kernel)

theorem genesis2_reachable : Reachable chain genesis2 := .genesis _ ⟨rfl, fun _ => rfl⟩

/-- A query for A and B in the demo finds the pair of A and B. -/
example : (val (Factory.queryPair chain.api (facState deployed fac) (.token tB, .token tA))).map PairInfo.assetInfos =
    some (.token tA, .token tB) := by decide +kernel

/-- The lookup theorem applies to the pair of "abca" and "bcd". -/
example : ∃ info, Factory.queryPair chain.api (facState collided fac2)
      (.native [98, 99, 100], .native [97, 98, 99, 97]) = .ok info ∧
    ∀ z ∈ [AssetInfo.native [98, 99, 100], .native [97, 98, 99, 97]],
      ∀ i ∈ [info.assetInfos.1, info.assetInfos.2], ∀ r r', z.toRaw chain.api = .ok r →
      i.toRaw chain.api = .ok r' → Apart r r' := by
  have h2 : ((val (Factory.queryPair chain.api (facState collided fac2)
      (.native [98, 99, 100], .native [97, 98, 99, 97]))).map PairInfo.assetInfos) =
        some (.native [97, 98, 99, 97], .native [98, 99, 100]) := by decide +kernel
  rw [Option.map_eq_some_iff] at h2
  obtain ⟨info, h3, h4⟩ := h2
  refine ⟨info, val_eq h3, ?_⟩
  rw [h4]
  intro z hz i hi r r' hr hr'
  simp only [List.mem_cons, List.not_mem_nil, or_false] at hz hi
  rcases hz with rfl | rfl <;> rcases hi with rfl | rfl <;> cases hr <;> cases hr' <;>
    first | (exact fun _ => rfl) | (unfold Apart; decide)

/-- In the demo chain every address has one spelling, and there are registered pairs. -/
example : (∀ x y b, chain.api.canon x = some b → chain.api.canon y = some b → x = y) ∧
    (facState deployed fac).pairs ≠ [] :=
  ⟨fun x y b h1 h2 => by simp only [chain, api, Option.some.injEq] at h1 h2; rw [h1, h2], by decide +kernel⟩

/-- A page of the demo's registry. -/
example : (val (Factory.queryPairs chain.api (facState deployed fac) none (some 1))).map List.length = some 1 ∧
    (val (Factory.queryPairs chain.api (facState deployed fac) none none)).map List.length = some 2 := by decide +kernel

end Demo

/-- C40 is false in general: after a pair of "abca" and "bcd" was created, a query for "abc" and "abcd" returns it. -/
theorem C40_counterexample : ∃ (c : Chain) (w : World) (a : Addr) (adm : Option Addr) (s : Factory.State)
    (info : PairInfo), c.Lawful ∧ Reachable c w ∧ w.contracts a = some ⟨adm, .factory s⟩ ∧
    Factory.queryPair c.api s (.native [97, 98, 99], .native [97, 98, 99, 100]) = .ok info ∧
    info.assetInfos = (.native [97, 98, 99, 97], .native [98, 99, 100]) := by
  have h : ∃ info, Factory.queryPair Demo.chain.api (Demo.facState Demo.collided Demo.fac2)
      (.native [97, 98, 99], .native [97, 98, 99, 100]) = .ok info ∧
      info.assetInfos = (.native [97, 98, 99, 97], .native [98, 99, 100]) := by
    have h2 : ((Demo.val (Factory.queryPair Demo.chain.api (Demo.facState Demo.collided Demo.fac2)
      (.native [97, 98, 99], .native [97, 98, 99, 100]))).map PairInfo.assetInfos) =
        some (.native [97, 98, 99, 97], .native [98, 99, 100]) := by decide +kernel
    rw [Option.map_eq_some_iff] at h2
    obtain ⟨info, h3, h4⟩ := h2
    exact ⟨info, Demo.val_eq h3, h4⟩
  obtain ⟨info, h1, h2⟩ := h
  exact ⟨Demo.chain, Demo.collided, Demo.fac2, none, _, info, Demo.lawful,
    Demo.genesis2_reachable.later (Demo.later_runs Demo.collided_run), Demo.facState_eq (by decide +kernel), h1, h2⟩

/-- C42 is false in general: three registered pairs, but paging one by one lists only two of them. -/
theorem C42_counterexample : ∃ (c : Chain) (w : World) (a : Addr) (adm : Option Addr) (s : Factory.State)
    (l : List PairInfo), c.Lawful ∧ Reachable c w ∧ w.contracts a = some ⟨adm, .factory s⟩ ∧ s.pairs.length = 3 ∧
    Pages c.api s (some 1) none l ∧ l.length = 2 := by
  have q1 : ∃ p, Factory.queryPairs Demo.chain.api (Demo.facState Demo.gapped Demo.fac) none (some 1) = .ok [p] ∧
      p.assetInfos = (.token Demo.tA, .token Demo.tB) := by
    have h : ((Demo.val (Factory.queryPairs Demo.chain.api (Demo.facState Demo.gapped Demo.fac) none (some 1))).map
      fun l => (l.length == 1, l.map PairInfo.assetInfos)) = some (true, [(.token Demo.tA, .token Demo.tB)]) := by
      decide +kernel
    rw [Option.map_eq_some_iff] at h
    obtain ⟨l, h1, h2⟩ := h
    match l, h2 with
    | [p], h2 => exact ⟨p, Demo.val_eq h1, by simpa using h2⟩
  have q2 : ∃ p, Factory.queryPairs Demo.chain.api (Demo.facState Demo.gapped Demo.fac)
      (some (.token Demo.tA, .token Demo.tB)) (some 1) = .ok [p] ∧ p.assetInfos = (.token Demo.tB, .token Demo.tC) := by
    have h : ((Demo.val (Factory.queryPairs Demo.chain.api (Demo.facState Demo.gapped Demo.fac)
      (some (.token Demo.tA, .token Demo.tB)) (some 1))).map
      fun l => (l.length == 1, l.map PairInfo.assetInfos)) = some (true, [(.token Demo.tB, .token Demo.tC)]) := by
      decide +kernel
    rw [Option.map_eq_some_iff] at h
    obtain ⟨l, h1, h2⟩ := h
    match l, h2 with
    | [p], h2 => exact ⟨p, Demo.val_eq h1, by simpa using h2⟩
  obtain ⟨p1, h1, e1⟩ := q1
  obtain ⟨p2, h2, e2⟩ := q2
  refine ⟨Demo.chain, Demo.gapped, Demo.fac, none, Demo.facState Demo.gapped Demo.fac, [p1] ++ ([p2] ++ []), Demo.lawful,
    Demo.deployed_reachable.later (Demo.later_runs Demo.gapped_run), Demo.facState_eq (by decide +kernel),
    by decide +kernel, .next _ _ p1 _ h1 rfl ?_, rfl⟩
  rw [e1]
  refine .next _ _ p2 _ h2 rfl ?_
  rw [e2]
  exact .last _ (Demo.val_eq (by decide +kernel))

namespace Demo

/-- A codec in which byte 2 is another spelling of byte 1 (like upper and lower case). -/
def low (x : UInt8) : UInt8 := if x = 2 then 1 else x
def aliasChain : Chain where
  api := { canon := fun s => some (s.map low), human := fun b => if b.map low = b then some b else none }
  addrOf := chain.addrOf
  codes := chain.codes

theorem alias_lawful : aliasChain.Lawful where
  canon_human b s h := by
    simp only [aliasChain] at h ⊢
    split at h
    · cases h; rename_i h; rw [h]
    · cases h
  addr_valid n := by
    have : ((List.replicate (n + 1) 1).map low : Bytes) = List.replicate (n + 1) 1 := by
      rw [List.map_replicate]; rfl
    exact ⟨_, rfl, by simp only [aliasChain, chain, this, if_true]⟩
  addr_inj m n h := lawful.addr_inj m n h

/-- `user` signs messages one after the other on the chain `aliasChain`. -/
def aliasRuns : List CosmosMsg → World → R World
  | [], w => .ok w
  | m :: t, w => do
    let w ← runTx aliasChain idle 20 w user m
    aliasRuns t w

theorem isUser_alias : aliasChain.IsUser user := by
  refine ⟨fun n h => ?_, rfl⟩
  have h2 := congrArg List.head? h
  simp only [aliasChain, chain, user, List.replicate_succ, List.head?_cons, Option.some.injEq] at h2
  exact absurd h2 (by decide)

theorem alias_reachable {l : List CosmosMsg} : ∀ {w w' : World}, Reachable aliasChain w → aliasRuns l w = .ok w' →
    Reachable aliasChain w' := by
  induction l with
  | nil => intro w w' h hr; cases hr; exact h
  | cons m t ih =>
    intro w w' h hr
    simp only [aliasRuns, bind_eq_ok] at hr
    obtain ⟨v, h1, h2⟩ := hr
    exact ih (.step _ _ h (.tx idle 20 w v user m isUser_alias h1)) h2

/-- A token, a factory, and a pair of the token with itself under its other name. -/
def aliasMsgs : List CosmosMsg :=
  [tokenMsg, facMsg, .exec tB (.createPair (.token [1], .token [2]) ⟨[user], 10, 10⟩) []]
def aliased : World := worldOf (aliasRuns aliasMsgs genesis)
theorem aliased_run : aliasRuns aliasMsgs genesis = .ok aliased := worldOf_eq (by decide +kernel)

end Demo

/-- C44 is false in general: on a chain whose addresses have several spellings (as bech32 has), a registered pair whose
two assets are the same token. -/
theorem C44_counterexample : ∃ (c : Chain) (w : World) (a : Addr) (adm : Option Addr) (s : Factory.State)
    (e : Bytes × PairInfoRaw), c.Lawful ∧ Reachable c w ∧ w.contracts a = some ⟨adm, .factory s⟩ ∧ e ∈ s.pairs ∧
    e.2.assetInfos.1 = e.2.assetInfos.2 := by
  have h : ((Demo.facState Demo.aliased Demo.tB).pairs.map fun e => decide (e.2.assetInfos.1 = e.2.assetInfos.2)) =
    [true] := by decide +kernel
  cases hp : (Demo.facState Demo.aliased Demo.tB).pairs with
  | nil => rw [hp] at h; cases h
  | cons e t =>
    rw [hp] at h
    simp only [List.map_cons, List.cons.injEq, decide_eq_true_eq] at h
    exact ⟨Demo.aliasChain, Demo.aliased, Demo.tB, none, _, e, Demo.alias_lawful,
      Demo.alias_reachable (.genesis _ ⟨rfl, fun _ => rfl⟩) Demo.aliased_run, Demo.facState_eq (by decide +kernel),
      by rw [hp]; simp, h.1⟩

end Halo
