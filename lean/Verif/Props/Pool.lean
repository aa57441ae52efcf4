import Verif.Props.Admin
import Verif.Lemmas.PoolHist
/-! # A pair is a constant-product pool (C20, C21, C22) -/

namespace Halo
open _root_.Halo.Spec

/-- `k` describes a deployed pair with well-behaved assets: the pair's storage names the two assets and the LP token,
these are three different things, each asset is a native coin or a halo token, and so is the LP token. -/
structure PairSite.Sound (k : PairSite) (c : Chain) (w : World) : Prop where
  live : ∃ adm, w.contracts k.a = some ⟨adm, .pair k.s⟩
  info0 : k.s.assetInfos.1.toNormal c.api = .ok k.i0
  info1 : k.s.assetInfos.2.toNormal c.api = .ok k.i1
  lp : c.api.human k.s.liquidityToken = some k.lt
  ne : k.i0 ≠ k.i1
  lp0 : k.i0 ≠ .token k.lt
  lp1 : k.i1 ≠ .token k.lt
  asset0 : Honest w k.i0
  asset1 : Honest w k.i1
  token : Honest w (.token k.lt)

/-- The pair's current admin. -/
noncomputable def PairSite.Sound.adm {k : PairSite} {c : Chain} {w : World} (h : k.Sound c w) : Option Addr := h.live.choose

theorem PairSite.Sound.pair {k : PairSite} {c : Chain} {w : World} (h : k.Sound c w) :
    w.contracts k.a = some ⟨h.adm, .pair k.s⟩ := h.live.choose_spec

theorem PairSite.Sound.ctx {k : PairSite} {c : Chain} {w : World} (hl : c.Lawful) (h : k.Sound c w) : k.Ctx c :=
  ⟨hl, h.info0, h.info1, h.lp, h.ne, h.lp0, h.lp1⟩

theorem PairSite.Sound.good {k : PairSite} {c : Chain} {w : World} (hl : c.Lawful) (hw : Reachable c w)
    (h : k.Sound c w) : k.Good w := by
  refine ⟨h.live, h.asset0, h.asset1, ?_⟩
  rcases C29_pair_is_minter hl hw h.pair h.lp with h2 | h2
  · exact h2
  · obtain ⟨adm, st, h3⟩ := h.token k.lt rfl
    rw [h2] at h3; cases h3

theorem PairSite.Good.sound {k : PairSite} {c : Chain} {w : World} (hx : k.Ctx c) (h : k.Good w) :
    k.Sound c w := by
  refine ⟨h.live, hx.info0, hx.info1, hx.lp, hx.ne, hx.lp0, hx.lp1, h.asset0, h.asset1, ?_⟩
  intro t ht
  cases ht
  obtain ⟨st, hst, _⟩ := h.lp
  exact ⟨_, _, hst⟩

/-! ## C21 -/

/-- C21: over any history — any transactions by anyone, through any contracts, hostile ones included — the reserves and
the LP supply of a pair with well-behaved assets are those of a constant-product pool to which exactly the requests were
made that were made to the pair, in that order: swaps at the quoted price, deposits, pro-rata withdrawals. In between,
the reserves can only be donated to and LP tokens can only be burned. This holds until somebody with the right to do so
migrates the pair or one of its assets to different code. -/
theorem C21_constant_product {c : Chain} (hc : c.Lawful) {w w' : World} (hw : Reachable c w)
    {tr : List (World × Frame)} (hl : Hist c w tr w') {k : PairSite} (hk : k.Sound c w) :
    ((∃ adm, w'.contracts k.a = some ⟨adm, .other⟩) ∨
      ∃ t adm, (k.i0 = .token t ∨ k.i1 = .token t) ∧ w'.contracts t = some ⟨adm, .other⟩) ∨
    (k.Sound c w' ∧ Path (k.pool w) (k.calls c tr) (k.pool w')) := by
  have hx := hk.ctx hc
  rcases PairSite.Good.hist hx hw (hk.good hc hw) hl with h | ⟨h1, h2⟩
  · exact .inl h
  · exact .inr ⟨h1.sound hx, h2⟩

/-! ## C01 and C54: histories of swaps -/

/-- A swap request. -/
def IsSwap : Pool × Call → Prop
  | (_, .swap0 _) => True
  | (_, .swap1 _) => True
  | _ => False

theorem path_product {p q : Pool} {cs : List (Pool × Call)} (h : Path p cs q) (hs : ∀ e ∈ cs, IsSwap e)
    (hd : ∀ e ∈ cs, ¬ Dust e) : p.r0 * p.r1 ≤ q.r0 * q.r1 := by
  induction h with
  | done _ _ h => exact Nat.mul_le_mul h.r0 h.r1
  | call p b q r l rest h1 h2 h3 ih =>
    have ih := ih (fun e he => hs e (List.mem_cons_of_mem _ he)) (fun e he => hd e (List.mem_cons_of_mem _ he))
    refine ((Nat.mul_le_mul h1.r0 h1.r1).trans ?_).trans ih
    have hs := hs _ List.mem_cons_self
    have hd := hd _ List.mem_cons_self
    cases h2 with
    | swap0 _ x ho h => exact payout_product' ho hd
    | swap1 _ x ho h =>
      have := payout_product' (a := b.r0) ho hd
      simp only
      rw [Nat.mul_comm b.r0, Nat.mul_comm (b.r0 - _)]
      exact this
    | init | deposit | withdraw => exact hs.elim

/-- **C01 (partial).** On the chain: over any history in which the pair was asked only for swaps, by anyone and in any
number, the product of what it holds has not fallen, provided none of them was a dust swap. Missing: dust swaps, for which it
is false (`C01_counterexample`); how much they can lower the product is `C52_dust_is_small`. -/
theorem C01_swaps_keep_product_partial {c : Chain} (hc : c.Lawful) {w w' : World} (hw : Reachable c w)
    {tr : List (World × Frame)} (hl : Hist c w tr w') {k : PairSite} (hk : k.Sound c w)
    (hs : ∀ e ∈ k.calls c tr, IsSwap e) (hd : ∀ e ∈ k.calls c tr, ¬ Dust e) :
    k.Broken w' ∨ held w k.i0 k.a * held w k.i1 k.a ≤ held w' k.i0 k.a * held w' k.i1 k.a := by
  rcases C21_constant_product hc hw hl hk with h | ⟨_, h⟩
  · exact .inl h
  · exact .inr (path_product h hs hd)

/-- C54: no sequence of swaps extracts value from a pair. Over any history in which the pair was asked only for swaps that
are not dust, if the pair now holds no more of one asset than before, it holds at least as much of the other. So traders
together, however many there are and however the swaps interleave, cannot end up with more of one asset without having paid
in more of the other. -/
theorem C54_swaps_extract_nothing {c : Chain} (hc : c.Lawful) {w w' : World} (hw : Reachable c w)
    {tr : List (World × Frame)} (hl : Hist c w tr w') {k : PairSite} (hk : k.Sound c w)
    (hs : ∀ e ∈ k.calls c tr, IsSwap e) (hd : ∀ e ∈ k.calls c tr, ¬ Dust e) :
    k.Broken w' ∨
      ((held w k.i0 k.a ≠ 0 → held w' k.i0 k.a ≤ held w k.i0 k.a → held w k.i1 k.a ≤ held w' k.i1 k.a) ∧
       (held w k.i1 k.a ≠ 0 → held w' k.i1 k.a ≤ held w k.i1 k.a → held w k.i0 k.a ≤ held w' k.i0 k.a)) := by
  rcases C01_swaps_keep_product_partial hc hw hl hk hs hd with h | h
  · exact .inl h
  · refine .inr ⟨fun h0 h1 => ?_, fun h0 h1 => ?_⟩
    · exact Nat.le_of_mul_le_mul_left (h.trans (Nat.mul_le_mul_right _ h1)) (Nat.pos_of_ne_zero h0)
    · exact Nat.le_of_mul_le_mul_right (h.trans (Nat.mul_le_mul_left _ h1)) (Nat.pos_of_ne_zero h0)

/-! ## C52, C22 and C20 -/

/-- C52: over any history in which no deposit was made to a pair without LP tokens, the value of a share,
`reserve0 * reserve1 / supply^2`, can only have fallen if somebody made a dust swap: one that paid less than 334 units
before the fee, into a reserve that ended above `10^18` units. -/
theorem C52_only_dust_lowers_value {c : Chain} (hc : c.Lawful) {w w' : World} (hw : Reachable c w)
    {tr : List (World × Frame)} (hl : Hist c w tr w') {k : PairSite} (hk : k.Sound c w)
    (hf : ∀ e ∈ k.calls c tr, ¬ First e) (hd : ∀ e ∈ k.calls c tr, ¬ Dust e) :
    k.Broken w' ∨ (k.pool w).r0 * (k.pool w).r1 * (k.pool w').supply ^ 2 ≤
      (k.pool w').r0 * (k.pool w').r1 * (k.pool w).supply ^ 2 := by
  rcases C21_constant_product hc hw hl hk with h | ⟨_, h⟩
  · exact .inl h
  · exact .inr (h.noLoss hd hf)

/-- C52: likewise, shares that were backed can only have lost their backing by a dust swap (first deposits do no harm). -/
theorem C52_only_dust_unbacks {c : Chain} (hc : c.Lawful) {w w' : World} (hw : Reachable c w)
    {tr : List (World × Frame)} (hl : Hist c w tr w') {k : PairSite} (hk : k.Sound c w)
    (hd : ∀ e ∈ k.calls c tr, ¬ Dust e) (hb : (k.pool w).supply ^ 2 ≤ (k.pool w).r0 * (k.pool w).r1) :
    k.Broken w' ∨ (k.pool w').supply ^ 2 ≤ (k.pool w').r0 * (k.pool w').r1 := by
  rcases C21_constant_product hc hw hl hk with h | ⟨_, h⟩
  · exact .inl h
  · exact .inr (h.backed hd hb)

private theorem dust_loss {o a x : Nat} (ho : o ≠ 0) (hg : gross o a x < 334) :
    payout o a x ≤ 333 ∧ o * a * 10 ^ 18 < (o + x) * (a - payout o a x) * 10 ^ 18 + (o + x) := by
  have hp : payout o a x = gross o a x := by unfold payout; omega
  have hle : gross o a x ≤ a := by rw [gross_eq]; exact grossOf_le o a x
  have hk := gross_key (o := o) (a := a) (x := x) (by omega)
  have hD : DF = 10 ^ 18 := by norm_num [DF]
  rw [hp]
  rw [← gross_eq, hD] at hk
  refine ⟨by omega, ?_⟩
  generalize gross o a x = g at *
  generalize 10 ^ 18 = D at *
  obtain ⟨b, rfl⟩ := Nat.exists_eq_add_of_le hle
  rw [Nat.add_sub_cancel_left]
  nlinarith

/-- C52: a dust swap pays at most 333 units and leaves the LP supply alone; and the product of the reserves falls by less
than the new offer reserve divided by `10^18`. -/
theorem C52_dust_is_small {l : Call} {p q : Pool} (h : Act l p q) (hd : Dust (p, l)) :
    q.supply = p.supply ∧
    ((p.r1 ≤ q.r1 + 333 ∧ p.r0 * p.r1 * 10 ^ 18 < q.r0 * q.r1 * 10 ^ 18 + q.r0) ∨
     (p.r0 ≤ q.r0 + 333 ∧ p.r0 * p.r1 * 10 ^ 18 < q.r0 * q.r1 * 10 ^ 18 + q.r1)) := by
  cases h with
  | swap0 _ x ho h =>
    obtain ⟨h1, h2⟩ := dust_loss ho hd.1
    exact ⟨rfl, .inl ⟨by simp only; omega, h2⟩⟩
  | swap1 _ x ho h =>
    obtain ⟨h1, h2⟩ := dust_loss ho hd.1
    refine ⟨rfl, .inr ⟨by simp only; omega, ?_⟩⟩
    rw [Nat.mul_comm p.r0, Nat.mul_comm (p.r0 - _)]
    exact h2
  | init | deposit | withdraw => exact hd.elim

/-- At most `10^18` units of the asset exist: for a native coin, whenever a message was executed in the history `tr`; for a
token, in `w` and, by its cap, ever after. -/
def AtMost18 (w : World) (tr : List (World × Frame)) : AssetInfo → Prop
  | .native d => ∀ e ∈ tr, (e.1.bank d).total ≤ 10 ^ 18
  | .token t => ∃ adm st, w.contracts t = some ⟨adm, .token st⟩ ∧ st.totalSupply ≤ 10 ^ 18 ∧
      ∀ m, st.mint = some m → ∃ k, m.cap = some k ∧ k ≤ 10 ^ 18

private theorem AtMost18.held {c : Chain} {w w' : World} (hw : Reachable c w) {tr : List (World × Frame)}
    (hl : Hist c w tr w') {i : AssetInfo} (h : AtMost18 w tr i) (b : Addr) : ∀ e ∈ tr, held e.1 i b ≤ 10 ^ 18 := by
  cases i with
  | native d => intro e he; exact (AMap.getD0_le_total _ _).trans (h e he)
  | token t =>
    have lim : ∀ v, Later c w v → Limited (10 ^ 18) v (.token t) := by
      intro v hv
      induction hv with
      | refl => exact .inl h
      | step u v _ hs ih =>
        cases hs with
        | tx adv gas _ _ signer m hu hx =>
          obtain ⟨n, hr⟩ := runTx_inv hx
          exact run_induct (P := fun w _ => Limited (10 ^ 18) w (.token t)) (fun _ _ _ _ _ _ hp hs => hp.step hs) ih hr
        | block => exact ih
        | env => exact ih
    intro e he
    obtain ⟨_, h1, h2⟩ := hl.all (P := fun v _ => TokensOk v ∧ Limited (10 ^ 18) v (.token t))
      (fun v h1 _ => ⟨(hw.later h1).tokensOk, lim v h1⟩) (fun _ _ _ h _ => h)
      (fun _ _ _ _ _ _ _ h hs => ⟨h.1.step hs, h.2.step hs⟩) e he
    exact h2.held_le h1 b

private theorem no_dust {c : Chain} {w w' : World} (hw : Reachable c w) {tr : List (World × Frame)}
    (hl : Hist c w tr w') {k : PairSite} (h0 : AtMost18 w tr k.i0) (h1 : AtMost18 w tr k.i1)
    (hp : Path (k.pool w) (k.calls c tr) (k.pool w')) : ∀ e ∈ k.calls c tr, ¬ Dust e := by
  rintro ⟨b, l⟩ he hd
  obtain ⟨r, hact⟩ := hp.acts _ he
  obtain ⟨e, hetr, hcall⟩ := List.mem_filterMap.mp he
  have l0 : (k.pool e.1).r0 ≤ 10 ^ 18 := h0.held hw hl k.a e hetr
  have l1 : (k.pool e.1).r1 ≤ 10 ^ 18 := h1.held hw hl k.a e hetr
  have hb := PairSite.callOf_pool hcall
  cases hact with
  | swap0 _ x ho _ =>
    have h2 := hd.2
    simp only at hb h2 ho
    omega
  | swap1 _ x ho _ =>
    have h2 := hd.2
    simp only at hb h2 ho
    omega
  | init | deposit | withdraw => exact hd.elim

/-- **C22 (partial).** Over any history the value of a share, `reserve0 * reserve1 / supply^2`, does not fall, provided at
most `10^18` units of each asset exist and no deposit was made to a pair without LP tokens (when there are none, nobody
has a share to lose). Missing: assets with more than `10^18` units, where it is false (`C22_counterexample`); what is
true for them is `C52_only_dust_lowers_value`. -/
theorem C22_share_value_partial {c : Chain} (hc : c.Lawful) {w w' : World} (hw : Reachable c w)
    {tr : List (World × Frame)} (hl : Hist c w tr w') {k : PairSite} (hk : k.Sound c w)
    (h0 : AtMost18 w tr k.i0) (h1 : AtMost18 w tr k.i1) (hf : ∀ e ∈ k.calls c tr, ¬ First e) :
    k.Broken w' ∨ (k.pool w).r0 * (k.pool w).r1 * (k.pool w').supply ^ 2 ≤
      (k.pool w').r0 * (k.pool w').r1 * (k.pool w).supply ^ 2 := by
  rcases C21_constant_product hc hw hl hk with h | ⟨_, h⟩
  · exact .inl h
  · exact .inr (h.noLoss (no_dust hw hl h0 h1 h) hf)

/-- **C20 (partial).** From any moment at which the shares were backed — in particular when there were none — they stay
backed forever: `supply^2 ≤ reserve0 * reserve1`; provided at most `10^18` units of each asset exist. Missing: assets with
more than `10^18` units, where it is false (`C20_counterexample`); what is true for them is `C52_only_dust_unbacks`. -/
theorem C20_backed_partial {c : Chain} (hc : c.Lawful) {w w' : World} (hw : Reachable c w)
    {tr : List (World × Frame)} (hl : Hist c w tr w') {k : PairSite} (hk : k.Sound c w)
    (h0 : AtMost18 w tr k.i0) (h1 : AtMost18 w tr k.i1)
    (hb : (k.pool w).supply ^ 2 ≤ (k.pool w).r0 * (k.pool w).r1) :
    k.Broken w' ∨ (k.pool w').supply ^ 2 ≤ (k.pool w').r0 * (k.pool w').r1 := by
  rcases C21_constant_product hc hw hl hk with h | ⟨_, h⟩
  · exact .inl h
  · exact .inr (h.backed (no_dust hw hl h0 h1 h) hb)

/-! ## The hypotheses can be met; and histories that break C20 and C22 for large supplies -/

namespace Demo

/-- The pair AB of the demo. -/
def siteAB : PairSite where
  a := pAB
  lt := lpAB
  s := { assetInfos := (.token tA, .token tB), contractAddr := pAB, liquidityToken := lpAB, assetDecimals := (6, 6),
         requirements := ⟨[user], 10, 10⟩ }
  i0 := .token tA
  i1 := .token tB

private theorem honest_of {w : World} {t : Addr} (h : (tokenAt w t).isSome = true) : Honest w (.token t) := by
  intro t' ht
  cases ht
  obtain ⟨p, hp⟩ := Option.isSome_iff_exists.mp h
  exact ⟨_, _, tokenAt_eq hp⟩

theorem sound_of {w : World} {k : PairSite} (hp : (pairAt w k.a).map Prod.snd = some k.s)
    (hs : k.s.assetInfos.1.toNormal chain.api = .ok k.i0 ∧ k.s.assetInfos.2.toNormal chain.api = .ok k.i1 ∧
      chain.api.human k.s.liquidityToken = some k.lt)
    {x y : Addr} (hx : k.i0 = .token x) (hy : k.i1 = .token y) (hne : x ≠ y ∧ x ≠ k.lt ∧ y ≠ k.lt)
    (ht : (tokenAt w x).isSome = true ∧ (tokenAt w y).isSome = true ∧ (tokenAt w k.lt).isSome = true) :
    k.Sound chain w where
  live := by
    obtain ⟨⟨adm, s⟩, h1, h2⟩ := Option.map_eq_some_iff.mp hp
    cases h2
    exact ⟨adm, pairAt_eq h1⟩
  info0 := hs.1
  info1 := hs.2.1
  lp := hs.2.2
  ne := by rw [hx, hy]; simpa using hne.1
  lp0 := by rw [hx]; simpa using hne.2.1
  lp1 := by rw [hy]; simpa using hne.2.2
  asset0 := by rw [hx]; exact honest_of ht.1
  asset1 := by rw [hy]; exact honest_of ht.2.1
  token := honest_of ht.2.2

theorem sound_AB : siteAB.Sound chain deployed :=
  sound_of (k := siteAB) (x := tA) (y := tB) (by decide +kernel) ⟨rfl, rfl, rfl⟩ rfl rfl (by decide +kernel)
    (by decide +kernel)

/-- A swap, a withdrawal and a burn of LP tokens. -/
def trade : List CosmosMsg :=
  [.exec tA (.send pAB 1000 (.swap none none none)) [], .exec lpAB (.send pAB 500 .withdrawLiquidity) [],
   .exec lpAB (.burn 7) []]

/-- The world after `trade`. -/
def traded : World := worldOf (runs trade deployed)
theorem traded_run : runs trade deployed = .ok traded := worldOf_eq (by decide +kernel)

example : siteAB.pool deployed = ⟨10000, 20000, 14142⟩ ∧ siteAB.pool traded = ⟨10612, 17544, 13635⟩ := by decide +kernel

/-- The frames executed in `trade`. -/
def tradeTrace : List (World × Frame) := traces trade deployed
theorem trade_hist : Hist chain deployed tradeTrace traded := hist_runs traded_run

/-- The requests: one swap, one withdrawal. -/
theorem trade_calls : siteAB.calls chain tradeTrace =
    [(⟨10000, 20000, 14142⟩, .swap0 1000), (⟨11000, 18187, 14142⟩, .withdraw 500)] := by decide +kernel

theorem atMost_of {w : World} {tr : List (World × Frame)} {t : Addr} (h : ((tokenAt w t).map fun p => decide (p.2.totalSupply ≤ 10 ^ 18) &&
    (match p.2.mint with | some ⟨_, some k⟩ => decide (k ≤ 10 ^ 18) | some _ => false | none => true)) = some true) :
    AtMost18 w tr (.token t) := by
  obtain ⟨adm, s, hs, h⟩ := exists_token h
  simp only [Bool.and_eq_true, decide_eq_true_eq] at h
  refine ⟨adm, s, hs, h.1, fun m hm => ?_⟩
  rw [hm] at h
  obtain ⟨_, cap⟩ := m
  cases cap with
  | none => simp at h
  | some k => exact ⟨k, rfl, by simpa using h.2⟩

example := C21_constant_product lawful deployed_reachable trade_hist sound_AB
/-- Two swaps, one each way. -/
def backForth : List CosmosMsg :=
  [.exec tA (.send pAB 1000 (.swap none none none)) [], .exec tB (.send pAB 1700 (.swap none none none)) []]
def swapped : World := worldOf (runs backForth deployed)
theorem swapped_run : runs backForth deployed = .ok swapped := worldOf_eq (by decide +kernel)
theorem swapped_calls : siteAB.calls chain (traces backForth deployed) =
    [(⟨10000, 20000, 14142⟩, .swap0 1000), (⟨11000, 18187, 14142⟩, .swap1 1700)] := by decide +kernel
example := C54_swaps_extract_nothing lawful deployed_reachable (hist_runs swapped_run) sound_AB
  (by rw [swapped_calls]; simp [IsSwap]) (by rw [swapped_calls]; simp [Dust])
example := C52_only_dust_lowers_value lawful deployed_reachable trade_hist sound_AB
  (by rw [trade_calls]; simp [First]) (by rw [trade_calls]; simp [Dust])
example := C52_only_dust_unbacks lawful deployed_reachable trade_hist sound_AB
  (by rw [trade_calls]; simp [Dust]) (by decide +kernel)
example := C22_share_value_partial lawful deployed_reachable trade_hist sound_AB
  (atMost_of (by decide +kernel)) (atMost_of (by decide +kernel)) (by rw [trade_calls]; simp [First])
example := C20_backed_partial lawful deployed_reachable trade_hist sound_AB
  (atMost_of (by decide +kernel)) (atMost_of (by decide +kernel)) (by decide +kernel)

/-- A token of which `user` holds `10^19` units. -/
def bigToken : CosmosMsg := .inst none 1 (.token ⟨[97, 97, 97], [97, 97, 97], 18, [(user, 10 ^ 19)], none⟩) []
def bfac : Addr := chain.addrOf 2
def bpair : Addr := chain.addrOf 3
def blp : Addr := chain.addrOf 4

/-- Two such tokens and a pair with `3 * 999999999^2` of the first and 3 of the second. -/
def bigSetup : List CosmosMsg :=
  [bigToken, bigToken, facMsg, .exec bfac (.createPair (.token tA, .token tB) ⟨[user], 1, 1⟩) [],
   .exec tA (.increaseAllowance bpair (10 ^ 19) none) [], .exec tB (.increaseAllowance bpair 3 none) [],
   .exec bpair (.provideLiquidity (⟨.token tA, 3 * 999999999 ^ 2⟩, ⟨.token tB, 3⟩) none none) []]

def big : World := worldOf (runs bigSetup genesis)
theorem big_run : runs bigSetup genesis = .ok big := worldOf_eq (by decide +kernel)

/-- One swap of half of the first reserve for 1 unit of the second. -/
def bigSwap : List CosmosMsg :=
  [.exec tA (.send bpair ((3 * 999999999 ^ 2 - 1) / 2) (.swap none none none)) []]

def big' : World := worldOf (runs bigSwap big)
theorem bigSwap_run : runs bigSwap big = .ok big' := worldOf_eq (by decide +kernel)

def siteBig : PairSite where
  a := bpair
  lt := blp
  s := { assetInfos := (.token tA, .token tB), contractAddr := bpair, liquidityToken := blp, assetDecimals := (18, 18),
         requirements := ⟨[user], 1, 1⟩ }
  i0 := .token tA
  i1 := .token tB

theorem sound_big : siteBig.Sound chain big :=
  sound_of (k := siteBig) (x := tA) (y := tB) (by decide +kernel) ⟨rfl, rfl, rfl⟩ rfl rfl (by decide +kernel)
    (by decide +kernel)

theorem sound_big' : siteBig.Sound chain big' :=
  sound_of (k := siteBig) (x := tA) (y := tB) (by decide +kernel) ⟨rfl, rfl, rfl⟩ rfl rfl (by decide +kernel)
    (by decide +kernel)

/-- A dust swap that lowers the product. -/
example := C52_dust_is_small (.swap0 ⟨3 * 999999999 ^ 2, 3, 1⟩ ((3 * 999999999 ^ 2 - 1) / 2) (by decide)
  (by decide +kernel) ⟨by decide +kernel, by decide +kernel, by decide +kernel, by decide +kernel⟩)
  (by unfold Dust; decide +kernel)

/-- The swap in `bigSwap` is a dust swap. -/
example : ∃ x, siteBig.calls chain (traces bigSwap big) = [(siteBig.pool big, .swap0 x)] ∧
    Dust (siteBig.pool big, .swap0 x) :=
  ⟨(3 * 999999999 ^ 2 - 1) / 2, by decide +kernel, by unfold Dust; decide +kernel⟩

end Demo

/-- C20 is false in general: a reachable state of a pair with honest tokens in which the LP supply squared exceeds the
product of the reserves. -/
theorem C20_counterexample : ∃ (c : Chain) (w : World) (k : PairSite), c.Lawful ∧ Reachable c w ∧ k.Sound c w ∧
    (k.pool w).r0 * (k.pool w).r1 < (k.pool w).supply ^ 2 :=
  ⟨Demo.chain, Demo.big', Demo.siteBig, Demo.lawful,
    (Demo.genesis_reachable.later (Demo.later_runs Demo.big_run)).later (Demo.later_runs Demo.bigSwap_run),
    Demo.sound_big', by decide +kernel⟩

/-- C22 is false in general: one swap in a pair with honest tokens lowers the value of a share. -/
theorem C22_counterexample : ∃ (c : Chain) (w w' : World) (k : PairSite), c.Lawful ∧ Reachable c w ∧
    ChainStep c w w' ∧ k.Sound c w ∧ k.Sound c w' ∧ (k.pool w').supply = (k.pool w).supply ∧ (k.pool w).supply ≠ 0 ∧
    (k.pool w').r0 * (k.pool w').r1 < (k.pool w).r0 * (k.pool w).r1 := by
  refine ⟨Demo.chain, Demo.big, Demo.big', Demo.siteBig, Demo.lawful,
    Demo.genesis_reachable.later (Demo.later_runs Demo.big_run), ?_, Demo.sound_big, Demo.sound_big',
    by decide +kernel, by decide +kernel, by decide +kernel⟩
  have h := Demo.bigSwap_run
  simp only [Demo.runs, Demo.bigSwap, bind_eq_ok] at h
  obtain ⟨v, h1, h2⟩ := h
  cases h2
  exact .tx Demo.idle 20 _ _ Demo.user _ Demo.isUser_user h1

end Halo
