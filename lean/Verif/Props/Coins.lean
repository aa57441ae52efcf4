import Verif.Props.Weigh
import Verif.Props.LiquidityTx
/-! # C132: pairs with coins trade one way, pairs of two coins not at all -/

namespace Halo
open _root_.Halo.Spec

namespace CoinsL
open WeighL

/-- The second reserve per share does not fall. -/
def Keep1 (p q : Pool) : Prop := p.r1 * q.supply ≤ q.r1 * p.supply

theorem Keep1.trans {p b q : Pool} (hb : b.supply ≠ 0) (h1 : Keep1 p b) (h2 : Keep1 b q) : Keep1 p q := by
  unfold Keep1 at *
  refine Nat.le_of_mul_le_mul_right (c := b.supply) ?_ (Nat.pos_of_ne_zero hb)
  calc p.r1 * q.supply * b.supply = p.r1 * b.supply * q.supply := by ring
    _ ≤ b.r1 * p.supply * q.supply := Nat.mul_le_mul_right _ h1
    _ = b.r1 * q.supply * p.supply := by ring
    _ ≤ q.r1 * b.supply * p.supply := Nat.mul_le_mul_right _ h2
    _ = _ := by ring

theorem of_drift {p q : Pool} (h : Drift p q) : Keep1 p q := Nat.mul_le_mul h.r1 h.supply

theorem of_act {l : Call} {p q : Pool} (h : Act l p q) (hS : p.supply ≠ 0) (hn : ∀ x, l ≠ .swap0 x) : Keep1 p q := by
  unfold Keep1
  cases h with
  | swap0 _ x => exact absurd rfl (hn x)
  | swap1 _ x => exact Nat.mul_le_mul_right _ (Nat.le_add_right _ _)
  | init _ _ _ h0 => exact absurd h0 hS
  | deposit _ d0 d1 s _ h0 h1 hs hpos =>
    have e1 : s * p.r1 ≤ d1 * p.supply := by
      rw [hs]; exact (Nat.mul_le_mul_right _ (min_le_right _ _)).trans (Nat.div_mul_le_self _ _)
    simp only
    nlinarith
  | withdraw _ s hs hpos h0 h1 =>
    have e1 := refund_le (r := p.r1) (s := s) hS
    simp only
    rw [Nat.mul_sub, Nat.sub_mul]
    exact Nat.sub_le_sub_left e1 _

theorem path_keep {p q : Pool} {cs : List (Pool × Call)} (h : Path p cs q) (hf : ∀ e ∈ cs, ¬ First e)
    (hn : ∀ e ∈ cs, ∀ x, e.2 ≠ .swap0 x) : Keep1 p q := by
  induction h with
  | done _ _ h => exact of_drift h
  | call p b q r l rest h1 h2 h3 ih =>
    have hf' : ∀ e ∈ rest, ¬ First e := fun e he => hf e (List.mem_cons_of_mem _ he)
    have ih := ih hf' fun e he => hn e (List.mem_cons_of_mem _ he)
    have zero : q.supply = 0 → Keep1 p r := by
      intro hq
      have := h3.none hf' hq
      unfold Keep1
      rw [this, Nat.mul_zero]
      exact Nat.zero_le _
    by_cases hq : q.supply = 0
    · exact zero hq
    by_cases hb : b.supply = 0
    · refine zero ?_
      have hf := hf (b, l) List.mem_cons_self
      cases h2 with
      | swap0 | swap1 => exact hb
      | init => exact absurd hb hf
      | deposit _ _ _ _ h0 => exact absurd hb h0
      | withdraw _ s hs => simp only; omega
    · exact ((of_drift h1).trans hb (of_act h2 hb (hn _ List.mem_cons_self))).trans hq ih

theorem path_keep0 {p q : Pool} {cs : List (Pool × Call)} (h : Path p cs q) (hf : ∀ e ∈ cs, ¬ First e)
    (hn : ∀ e ∈ cs, ∀ x, e.2 ≠ .swap1 x) : p.r0 * q.supply ≤ q.r0 * p.supply :=
  path_keep (path_mirror h)
    (by intro e he; obtain ⟨e, he', rfl⟩ := List.mem_map.mp he; exact fun h => hf e he' ((first_mirror e).mp h))
    (by
      intro e he x
      obtain ⟨⟨b, l⟩, he', rfl⟩ := List.mem_map.mp he
      have := hn _ he' x
      cases l <;> simp_all [mirrorE, mirrorC])

/-- No swap of a coin is among the requests. -/
theorem no_swap0 {c : Chain} {k : PairSite} {d : Denom} (h : k.i0 = .native d) (tr : List (World × Frame)) :
    ∀ e ∈ k.calls c tr, ∀ x, e.2 ≠ .swap0 x := by
  intro e he x
  obtain ⟨f, _, hf⟩ := List.mem_filterMap.mp he
  unfold PairSite.callOf at hf
  split at hf <;> first
    | (split_ifs at hf <;> simp_all <;> rw [← hf] <;> simp; done)
    | (split_ifs at hf <;> simp_all; done)
    | simp at hf

theorem no_swap1 {c : Chain} {k : PairSite} {d : Denom} (h : k.i1 = .native d) (tr : List (World × Frame)) :
    ∀ e ∈ k.calls c tr, ∀ x, e.2 ≠ .swap1 x := by
  intro e he x
  obtain ⟨f, _, hf⟩ := List.mem_filterMap.mp he
  unfold PairSite.callOf at hf
  split at hf <;> first
    | (split_ifs at hf <;> simp_all <;> rw [← hf] <;> simp; done)
    | (split_ifs at hf <;> simp_all; done)
    | simp at hf

end CoinsL
open CoinsL
open ZeroL (vault)

/-- **C132.** In a pair of a coin and a token the token can only be sold to the pair, never bought from it: over any history (first deposits excepted; whatever swaps,
deposits, withdrawals and gifts there are, leaks included) there is never less of the token behind an LP token than before. What providers lose to traders is the coin. -/
theorem C132_token_share {c : Chain} (hc : c.Lawful) {w w' : World} (hw : Reachable c w) {tr : List (World × Frame)} (hl : Hist c w tr w')
    {k : PairSite} (hk : k.Sound c w) (hf : ∀ e ∈ k.calls c tr, ¬ First e) {d : Denom} {j : AssetInfo}
    (hj : k.i0 = .native d ∧ j = k.i1 ∨ k.i1 = .native d ∧ j = k.i0) :
    k.Broken w' ∨ held w j k.a * supplyAt w' k.lt ≤ held w' j k.a * supplyAt w k.lt := by
  rcases C21_constant_product hc hw hl hk with h | ⟨_, h⟩
  · exact .inl h
  · rcases hj with ⟨h0, rfl⟩ | ⟨h0, rfl⟩
    · exact .inr (path_keep h hf (no_swap0 h0 tr))
    · exact .inr (path_keep0 h hf (no_swap1 h0 tr))

/-- **C132.** A pair of two coins cannot be traded with at all; it is a mere vault. There is never less of either coin behind an LP token than before, so at any prices an
LP token is never worth less. -/
theorem C132_two_coins {c : Chain} (hc : c.Lawful) {w w' : World} (hw : Reachable c w) {tr : List (World × Frame)} (hl : Hist c w tr w')
    {k : PairSite} (hk : k.Sound c w) (hf : ∀ e ∈ k.calls c tr, ¬ First e) {d0 d1 : Denom} (h0 : k.i0 = .native d0) (h1 : k.i1 = .native d1)
    (price : AssetInfo → Nat) :
    (∃ adm, w'.contracts k.a = some ⟨adm, .other⟩) ∨ held w k.i0 k.a * supplyAt w' k.lt ≤ held w' k.i0 k.a * supplyAt w k.lt ∧
      held w k.i1 k.a * supplyAt w' k.lt ≤ held w' k.i1 k.a * supplyAt w k.lt ∧
      vault price w k * supplyAt w' k.lt ≤ vault price w' k * supplyAt w k.lt := by
  have br : k.Broken w' → ∃ adm, w'.contracts k.a = some ⟨adm, .other⟩ := by
    rintro (h | ⟨t, adm, h | h, _⟩)
    · exact h
    · rw [h0] at h; cases h
    · rw [h1] at h; cases h
  rcases C132_token_share hc hw hl hk hf (.inr ⟨h1, rfl⟩) with h | e0
  · exact .inl (br h)
  rcases C132_token_share hc hw hl hk hf (.inl ⟨h0, rfl⟩) with h | e1
  · exact .inl (br h)
  refine .inr ⟨e0, e1, ?_⟩
  have e0' : (held w k.i0 k.a : ℚ) * supplyAt w' k.lt ≤ held w' k.i0 k.a * supplyAt w k.lt := by exact_mod_cast e0
  have e1' : (held w k.i1 k.a : ℚ) * supplyAt w' k.lt ≤ held w' k.i1 k.a * supplyAt w k.lt := by exact_mod_cast e1
  have p0 := mul_le_mul_of_nonneg_left e0' (Nat.cast_nonneg (α := ℚ) (price k.i0))
  have p1 := mul_le_mul_of_nonneg_left e1' (Nat.cast_nonneg (α := ℚ) (price k.i1))
  unfold vault
  linarith

private theorem paid_out {r T a T' x D q : Nat} (h : r * T' ≤ a * T) (h0 : a * x * D < (q + 1) * T' * D + a * T') (hT : T' ≠ 0) :
    r * (x * D) ≤ ((q + 1) * D + a) * T := by
  refine Nat.le_of_mul_le_mul_right (c := T') ?_ (Nat.pos_of_ne_zero hT)
  calc r * (x * D) * T' = r * T' * (x * D) := by ring
    _ ≤ a * T * (x * D) := Nat.mul_le_mul_right _ h
    _ = a * x * D * T := by ring
    _ ≤ ((q + 1) * T' * D + a * T') * T := Nat.mul_le_mul_right _ h0.le
    _ = _ := by ring

/-- **C132.** So whoever holds `x` of the `T` LP tokens of such a pair gets, whenever they withdraw them and whatever was done at the pair in the meantime, at least the
`r*x/T` tokens that these `x` stood for at first, up to one unit and `1/10^18` of the reserve. -/
theorem C132_withdraw_later {c : Chain} (hc : c.Lawful) {w w1 w2 : World} (hw : Reachable c w) {tr : List (World × Frame)} (hl : Hist c w tr w1)
    {k : PairSite} (hk : k.Sound c w) (hf : ∀ e ∈ k.calls c tr, ¬ First e) {d : Denom} {j : AssetInfo}
    (hj : k.i0 = .native d ∧ j = k.i1 ∨ k.i1 = .native d ∧ j = k.i0) {S : Addr} (hS : c.IsUser S) {x : Nat}
    {adv : Adv} {gas : Nat} (h : runTx c adv gas w1 S (.exec k.lt (.send k.a x .withdrawLiquidity) []) = .ok w2) :
    k.Broken w1 ∨ ∃ q, held w2 j S = held w1 j S + q ∧
      held w j k.a * (x * 10 ^ 18) ≤ ((q + 1) * 10 ^ 18 + held w1 j k.a) * supplyAt w k.lt := by
  rcases C132_token_share hc hw hl hk hf hj with hb | hv
  · exact .inl hb
  rcases C21_constant_product hc hw hl hk with hb | ⟨hk1, _⟩
  · exact .inl hb
  have hw1 := hw.later hl.later
  have hT := (withdraw_tx hc hw1 hk1 hS h).1
  obtain ⟨q0, q1, hwd, _, _, _, a0, _, a1⟩ := C16_withdraw_tx hc hw1 hk1 hS h
  generalize 10 ^ 18 = D at *
  rcases hj with ⟨_, rfl⟩ | ⟨_, rfl⟩
  · exact .inr ⟨q1, hwd.user1, paid_out hv a1 hT⟩
  · exact .inr ⟨q0, hwd.user0, paid_out hv a0 hT⟩

/-! ## Examples -/

namespace Demo

/-- Tokens are sold for coins, then there are a deposit and a withdrawal: fewer coins but more tokens are behind an LP token. -/
example := C132_token_share lawful (filledUA_reachable.later (later_runs dusk_run)) (hist_runs dawn_run) sound_dusk
  (by rw [toil_calls]; simp [First]) (.inl ⟨rfl, rfl⟩)
example : held dusk (.token tA) pUA * supplyAt dawn lpUA < held dawn (.token tA) pUA * supplyAt dusk lpUA ∧
    held dawn (.native [117]) pUA * supplyAt dusk lpUA < held dusk (.native [117]) pUA * supplyAt dawn lpUA := by decide +kernel

/-- Afterwards 100 LP tokens, which stood for 141 A at first, are paid 184 A (and 54 of the coins, which were 70). -/
def eveTx : CosmosMsg := .exec lpUA (.send pUA 100 .withdrawLiquidity) []
def eve : World := worldOf (runTx chain idle 20 dawn user eveTx)
theorem eve_run : runTx chain idle 20 dawn user eveTx = .ok eve := worldOf_eq (by decide +kernel)
example := C132_withdraw_later lawful (filledUA_reachable.later (later_runs dusk_run)) (hist_runs dawn_run) sound_dusk
  (by rw [toil_calls]; simp [First]) (.inl ⟨rfl, rfl⟩) isUser_user eve_run
example : held dusk (.token tA) pUA * 100 / supplyAt dusk lpUA = 141 ∧ held eve (.token tA) user = held dawn (.token tA) user + 184 ∧
    held dusk (.native [117]) pUA * 100 / supplyAt dusk lpUA = 70 ∧ held eve (.native [117]) user = held dawn (.native [117]) user + 54 := by decide +kernel

/-- The pair of the coins "abca" and "bcd", filled with 300 and 700. -/
def pCoins : Addr := chain.addrOf 2
def lpCoins : Addr := chain.addrOf 3
def siteCoins : PairSite where
  a := pCoins
  lt := lpCoins
  s := { assetInfos := (.native [97, 98, 99, 97], .native [98, 99, 100]), contractAddr := pCoins, liquidityToken := lpCoins, assetDecimals := (6, 6),
         requirements := ⟨[user], 10, 10⟩ }
  i0 := .native [97, 98, 99, 97]
  i1 := .native [98, 99, 100]
def putCoins (x y : Nat) : CosmosMsg :=
  .exec pCoins (.provideLiquidity (⟨.native [97, 98, 99, 97], x⟩, ⟨.native [98, 99, 100], y⟩) none none) [⟨[97, 98, 99, 97], x⟩, ⟨[98, 99, 100], y⟩]
def coined : World := worldOf (runs [putCoins 300 700] collided)
theorem coined_run : runs [putCoins 300 700] collided = .ok coined := worldOf_eq (by decide +kernel)
theorem coined_reachable : Reachable chain coined := (genesis2_reachable.later (later_runs collided_run)).later (later_runs coined_run)
/-- A lopsided deposit, a gift and a withdrawal. -/
def minting : List CosmosMsg := [putCoins 100 200, .bankSend pCoins [⟨[98, 99, 100], 9⟩], .exec lpCoins (.send pCoins 50 .withdrawLiquidity) []]
def minted : World := worldOf (runs minting coined)
theorem minted_run : runs minting coined = .ok minted := worldOf_eq (by decide +kernel)
theorem sound_coins : siteCoins.Sound chain coined where
  live := by
    have : (pairAt coined pCoins).map Prod.snd = some siteCoins.s := by decide +kernel
    obtain ⟨⟨adm, s⟩, h1, h2⟩ := Option.map_eq_some_iff.mp this
    cases h2
    exact ⟨adm, pairAt_eq h1⟩
  info0 := rfl
  info1 := rfl
  lp := rfl
  ne := by decide +kernel
  lp0 := by decide +kernel
  lp1 := by decide +kernel
  asset0 := by intro t ht; cases ht
  asset1 := by intro t ht; cases ht
  token := by
    intro t ht
    cases ht
    exact (exists_token (w := coined) (a := lpCoins) (t := fun _ => true) (by decide +kernel)).imp fun _ => Exists.imp fun _ h => h.1
theorem minting_calls : siteCoins.calls chain (traces minting coined) = [(⟨300, 700, 458⟩, .deposit 100 200), (⟨400, 909, 588⟩, .withdraw 50)] := by
  decide +kernel
example := C132_two_coins lawful coined_reachable (hist_runs minted_run) sound_coins (by rw [minting_calls]; simp [First]) rfl rfl (fun _ => 1)
example : supplyAt coined lpCoins = 458 ∧ supplyAt minted lpCoins = 538 ∧
    held coined siteCoins.i0 pCoins * 538 < held minted siteCoins.i0 pCoins * 458 ∧
    held coined siteCoins.i1 pCoins * 538 < held minted siteCoins.i1 pCoins * 458 := by decide +kernel
end Demo

end Halo
