import Verif.Props.Pool
import Verif.Props.Live
import Verif.Props.Router
/-! # Pools in which trading has stopped (C79)

The price of a swap is computed in 256 bits with 18 digits after the point. So a pool can be too large to trade in, and it
can be so lopsided that the price of one asset in the other is zero. -/

namespace Halo
open _root_.Halo.Spec

/-- The product of the reserves leaves no room for 18 digits in 256 bits (it is about `1.2 * 10^59` or more). -/
def Frozen (p : Pool) : Prop := 2 ^ 256 ≤ p.r0 * p.r1 * 10 ^ 18

/-- Somebody gives LP tokens back. -/
def IsWithdrawal : Pool × Call → Prop
  | (_, .withdraw _) => True
  | _ => False

/-! ## Frozen pools -/

theorem act_not_frozen {l : Call} {p q : Pool} (h : Act l p q) (hs : IsSwap (p, l)) : ¬ Frozen p := by
  unfold Frozen
  cases h with
  | swap0 _ x ho _ hp => have := hp.room; omega
  | swap1 _ x ho _ hp => have := hp.room; rw [Nat.mul_comm p.r1] at this; omega
  | init | deposit | withdraw => exact hs.elim

/-- **C79.** Over any history, no swap was ever granted by a frozen pool. -/
theorem C79_frozen_no_swap {c : Chain} (hc : c.Lawful) {w w' : World} (hw : Reachable c w) {tr : List (World × Frame)}
    (hl : Hist c w tr w') {k : PairSite} (hk : k.Sound c w) :
    k.Broken w' ∨ ∀ e ∈ k.calls c tr, IsSwap e → ¬ Frozen e.1 := by
  rcases C21_constant_product hc hw hl hk with h | ⟨_, h⟩
  · exact .inl h
  · refine .inr fun e he hs => ?_
    obtain ⟨r, ha⟩ := h.acts e he
    exact act_not_frozen ha hs

theorem Frozen.mono {p q : Pool} (h : Frozen p) (h0 : p.r0 ≤ q.r0) (h1 : p.r1 ≤ q.r1) : Frozen q :=
  le_trans h (Nat.mul_le_mul_right _ (Nat.mul_le_mul h0 h1))

theorem path_frozen {p q : Pool} {cs : List (Pool × Call)} (h : Path p cs q) (hf : Frozen p)
    (hn : ∀ e ∈ cs, ¬ IsWithdrawal e) : Frozen q ∧ ∀ e ∈ cs, ¬ IsSwap e := by
  induction h with
  | done p q h => exact ⟨hf.mono h.r0 h.r1, by simp⟩
  | call p b q r l rest h1 h2 h3 ih =>
    have hb := hf.mono h1.r0 h1.r1
    have hns : ¬ IsSwap (b, l) := fun hs => act_not_frozen h2 hs hb
    have hq : Frozen q := by
      cases h2 with
      | swap0 | swap1 => exact absurd trivial hns
      | init _ d0 d1 => exact hb.mono (Nat.le_add_right _ _) (Nat.le_add_right _ _)
      | deposit _ d0 d1 => exact hb.mono (Nat.le_add_right _ _) (Nat.le_add_right _ _)
      | withdraw => exact absurd trivial (hn _ List.mem_cons_self)
    obtain ⟨i1, i2⟩ := ih hq (fun e he => hn e (List.mem_cons_of_mem _ he))
    refine ⟨i1, fun e he => ?_⟩
    rcases List.mem_cons.mp he with rfl | he
    exacts [hns, i2 e he]

/-- **C79.** A frozen pool stays frozen, and no swap is granted in either direction, until somebody withdraws liquidity:
whatever else happens. -/
theorem C79_frozen_until_withdrawal {c : Chain} (hc : c.Lawful) {w w' : World} (hw : Reachable c w)
    {tr : List (World × Frame)} (hl : Hist c w tr w') {k : PairSite} (hk : k.Sound c w) (hf : Frozen (k.pool w))
    (hn : ∀ e ∈ k.calls c tr, ¬ IsWithdrawal e) :
    k.Broken w' ∨ (Frozen (k.pool w') ∧ ∀ e ∈ k.calls c tr, ¬ IsSwap e) := by
  rcases C21_constant_product hc hw hl hk with h | ⟨_, h⟩
  · exact .inl h
  · exact .inr (path_frozen h hf hn)

/-- At most `B` units of an asset exist: of a native coin by `w'`, of a token ever after `w` (the rest has been minted, or the
token's cap does not allow more). -/
def Scarce (B : Nat) (w w' : World) : AssetInfo → Prop
  | .native d => (w'.bank d).total ≤ B
  | .token t => ∃ adm st, w.contracts t = some ⟨adm, .token st⟩ ∧ st.totalSupply ≤ B ∧
      ∀ m, st.mint = some m → ∃ k, m.cap = some k ∧ k ≤ B

theorem Scarce.held_le {c : Chain} {w w' : World} (hw : Reachable c w) (hl : Later c w w') {B : Nat} {i : AssetInfo}
    (h : Scarce B w w' i) (b : Addr) : held w' i b ≤ B := by
  have hok := (hw.later hl).tokensOk
  cases i with
  | native d => exact (AMap.getD0_le_total _ _).trans h
  | token t =>
    have lim : Limited B w' (.token t) := by
      change ∃ adm st, _ at h
      clear hw hok
      induction hl with
      | refl => exact .inl h
      | step u v _ hs ih =>
        cases hs with
        | tx adv gas _ _ signer m hu hx =>
          obtain ⟨n, hr⟩ := runTx_inv hx
          exact run_induct (P := fun w _ => Limited B w (.token t)) (fun _ _ _ _ _ _ hp hs => hp.step hs) ih hr
        | block => exact ih
        | env => exact ih
    exact lim.held_le hok b

/-- **C79.** Nobody can freeze a pool of two assets of which at most `B0` and `B1` units exist, if
`B0*B1*10^18 < 2^256`. -/
theorem C79_small_never_frozen {c : Chain} {w w' : World} (hw : Reachable c w) (hl : Later c w w') (k : PairSite)
    {B0 B1 : Nat} (h0 : Scarce B0 w w' k.i0) (h1 : Scarce B1 w w' k.i1) (hB : B0 * B1 * 10 ^ 18 < 2 ^ 256) :
    ¬ Frozen (k.pool w') := by
  have l0 : (k.pool w').r0 ≤ B0 := h0.held_le hw hl k.a
  have l1 : (k.pool w').r1 ≤ B1 := h1.held_le hw hl k.a
  have := Nat.mul_le_mul_right (10 ^ 18) (Nat.mul_le_mul l0 l1)
  unfold Frozen
  omega

/-! ## Lopsided pools -/

theorem gross_same {o a : Nat} (ho : 0 < o) : gross o a o = a / 2 := by
  unfold gross
  rw [show o * a * 10 ^ 18 = o * (a * 10 ^ 18) from Nat.mul_assoc _ _ _, show o + o = o * 2 by omega,
    Nat.mul_div_mul_left _ _ ho]
  norm_num
  omega

theorem payout_pos {o a x : Nat} (h : 0 < gross o a x) : 0 < payout o a x := by
  unfold payout
  omega

theorem pos_gross {o a x : Nat} (h : 0 < payout o a x) : 0 < gross o a x := by
  unfold payout at h
  omega

theorem lt_two_mul_floor {A o : Nat} (ho : 0 < o) (h : o ≤ A) : A < 2 * (o * (A / o)) := by
  have h1 := Nat.lt_div_mul_add (a := A) ho
  have h2 : 1 ≤ A / o := (Nat.one_le_div_iff ho).mpr h
  have h3 : o * 1 ≤ o * (A / o) := Nat.mul_le_mul_left _ h2
  rw [Nat.mul_comm] at h1
  omega

theorem priceable_same {o a : Nat} (ho : 0 < o) (ha : a < 2 ^ 128) (h : o ≤ a * 10 ^ 18)
    (hr : o * a * 10 ^ 18 < 2 ^ 256) : Priceable o a o := by
  have h1 := lt_two_mul_floor ho h
  have h2 : o * (a * 10 ^ 18 / o) ≤ a * 10 ^ 18 := Nat.mul_div_le _ _
  have h3 : spot o a o ≤ a := by
    unfold spot
    exact Nat.div_le_of_le_mul (by rw [Nat.mul_comm (10 ^ 18)]; exact h2)
  refine ⟨hr, ?_, ?_, by omega⟩
  · refine lt_of_le_of_lt h2 (lt_of_lt_of_le (Nat.mul_lt_mul_of_pos_right ha (by norm_num)) (by norm_num))
  · rw [gross_same ho]
    unfold spot
    rw [Nat.le_div_iff_mul_le (by norm_num)]
    have : a / 2 * 2 ≤ a := Nat.div_mul_le_self _ _
    generalize o * (a * 10 ^ 18 / o) = T at *
    omega

theorem gross_one {o : Nat} (ho : 0 < o) : gross o 1 (o * 10 ^ 18) = 1 := by
  unfold gross
  have : o * 1 * 10 ^ 18 / (o + o * 10 ^ 18) = 0 := Nat.div_eq_of_lt (by omega)
  rw [this]

theorem priceable_one {o : Nat} (ho : 0 < o) (h : o ≤ 10 ^ 18) : Priceable o 1 (o * 10 ^ 18) := by
  have h1 : o * (10 ^ 18 / o) ≤ 10 ^ 18 := Nat.mul_div_le _ _
  have h2 : 1 ≤ 10 ^ 18 / o := (Nat.one_le_div_iff ho).mpr h
  have h3 : 1 * 1 ≤ o * (10 ^ 18 / o) := Nat.mul_le_mul ho h2
  have e : spot o 1 (o * 10 ^ 18) = o * (10 ^ 18 / o) := by
    unfold spot
    rw [one_mul, show o * 10 ^ 18 * (10 ^ 18 / o) = o * (10 ^ 18 / o) * 10 ^ 18 from Nat.mul_right_comm _ _ _]
    exact Nat.mul_div_cancel _ (by norm_num)
  refine ⟨?_, ?_, ?_, ?_⟩
  · have : o * 1 * 10 ^ 18 ≤ 10 ^ 18 * 1 * 10 ^ 18 := by omega
    exact lt_of_le_of_lt this (by norm_num)
  · rw [one_mul, show o * 10 ^ 18 * (10 ^ 18 / o) = o * (10 ^ 18 / o) * 10 ^ 18 from Nat.mul_right_comm _ _ _]
    refine lt_of_le_of_lt (Nat.mul_le_mul_right _ h1) (by norm_num)
  · rw [e, gross_one ho]; omega
  · rw [e, gross_one ho]
    refine lt_of_le_of_lt (Nat.sub_le _ _) (lt_of_le_of_lt h1 (by norm_num))

/-- **C79.** Exactly when something can be had for an asset: its reserve is not empty, it is at most `10^18` times the
other one, and the product of the two leaves room for 18 digits in 256 bits. -/
theorem C79_sellable_iff (o a : Nat) (ha : a < 2 ^ 128) :
    (∃ x, Priceable o a x ∧ 0 < payout o a x) ↔ 0 < o ∧ o ≤ a * 10 ^ 18 ∧ o * a * 10 ^ 18 < 2 ^ 256 := by
  constructor
  · rintro ⟨x, hp, h⟩
    have h1 := pos_gross h
    have h2 := hp.below
    have h3 : a * 10 ^ 18 / o ≠ 0 := by
      intro e
      unfold spot at h2
      rw [e, Nat.mul_zero, Nat.zero_div] at h2
      omega
    refine ⟨Nat.pos_of_ne_zero fun e => h3 (by rw [e, Nat.div_zero]), ?_, hp.room⟩
    by_contra hn
    exact h3 (Nat.div_eq_of_lt (by omega))
  · rintro ⟨h1, h2, h3⟩
    by_cases h4 : 2 ≤ a
    · exact ⟨o, priceable_same h1 ha h2 h3, payout_pos (by rw [gross_same h1]; omega)⟩
    · obtain rfl : a = 1 := by
        rcases Nat.eq_zero_or_pos a with rfl | _
        · omega
        · omega
      exact ⟨_, priceable_one h1 (by omega), payout_pos (by rw [gross_one h1]; omega)⟩

/-- **C79.** A pool with two reserves that is not frozen can be traded with in at least one direction. -/
theorem C79_one_direction {p : Pool} (h0 : 0 < p.r0) (h1 : 0 < p.r1) (b0 : p.r0 < 2 ^ 128) (b1 : p.r1 < 2 ^ 128)
    (hf : ¬ Frozen p) :
    (∃ x, Priceable p.r0 p.r1 x ∧ 0 < payout p.r0 p.r1 x) ∨ ∃ x, Priceable p.r1 p.r0 x ∧ 0 < payout p.r1 p.r0 x := by
  unfold Frozen at hf
  rw [C79_sellable_iff _ _ b1, C79_sellable_iff _ _ b0]
  rcases Nat.le_total p.r0 p.r1 with h | h
  · exact .inl ⟨h0, by omega, by omega⟩
  · exact .inr ⟨h1, by omega, by rw [Nat.mul_comm p.r1]; omega⟩

/-- What a granted swap pays; nothing else pays. -/
def paid : Pool × Call → Nat
  | (b, .swap0 x) => payout b.r0 b.r1 x
  | (b, .swap1 x) => payout b.r1 b.r0 x
  | _ => 0

/-- **C79.** Over any history, no swap offering an asset with more than `10^18` times the other reserve paid anything. -/
theorem C79_worthless {c : Chain} (hc : c.Lawful) {w w' : World} (hw : Reachable c w) {tr : List (World × Frame)}
    (hl : Hist c w tr w') {k : PairSite} (hk : k.Sound c w) :
    k.Broken w' ∨ ∀ b x, ((b, Call.swap0 x) ∈ k.calls c tr → b.r1 * 10 ^ 18 < b.r0 → paid (b, .swap0 x) = 0) ∧
      ((b, Call.swap1 x) ∈ k.calls c tr → b.r0 * 10 ^ 18 < b.r1 → paid (b, .swap1 x) = 0) := by
  have key : ∀ {o a x : Nat}, Priceable o a x → a * 10 ^ 18 < o → payout o a x = 0 := by
    intro o a x hp h
    have h2 := hp.below
    unfold spot at h2
    rw [Nat.div_eq_of_lt h, Nat.mul_zero, Nat.zero_div] at h2
    unfold payout
    omega
  rcases C21_constant_product hc hw hl hk with h | ⟨_, h⟩
  · exact .inl h
  · refine .inr fun b x => ⟨fun he hb => ?_, fun he hb => ?_⟩
    · obtain ⟨r, ha⟩ := h.acts _ he
      cases ha with
      | swap0 _ _ _ _ hp => exact key hp hb
    · obtain ⟨r, ha⟩ := h.acts _ he
      cases ha with
      | swap1 _ _ _ _ hp => exact key hp hb

/-! ## Transactions -/

/-- **C79.** In every reachable state in which the token `t` can be sold, a user who has as much of it as the pair can
sell that much, for half of the other reserve less the commission, if the decimals are equal. -/
theorem C79_can_trade {c : Chain} (hc : c.Lawful) {w : World} (hw : Reachable c w) {k : PairSite} (hk : k.Sound c w)
    (hf : Fits k w) {S : Addr} (hS : c.IsUser S) {t : Addr} {j : AssetInfo} (hd : k.Dir (.token t) j) (adv : Adv)
    (hdec : k.s.assetDecimals.1 = k.s.assetDecimals.2) (ho : 0 < held w (.token t) k.a)
    (hle : held w (.token t) k.a ≤ held w j k.a * 10 ^ 18)
    (hr : held w (.token t) k.a * held w j k.a * 10 ^ 18 < 2 ^ 256)
    (hb : held w (.token t) k.a ≤ held w (.token t) S) :
    ∃ gas w', runTx c adv gas w S (.exec t (.send k.a (held w (.token t) k.a) (.swap none none none)) []) = .ok w' ∧
      held w' j S = held w j S + (held w j k.a / 2 - 3 * (held w j k.a / 2) / 1000) := by
  obtain ⟨f0, f1⟩ := hf.lt hw.tokensOk
  have hj : held w (.token t) k.a < B128 ∧ held w j k.a < B128 := by
    rcases hd with ⟨h, rfl⟩ | ⟨h, rfl⟩
    · rw [← h]; exact ⟨f0, f1⟩
    · rw [← h]; exact ⟨f1, f0⟩
  have hp := priceable_same ho hj.2 hle hr
  obtain ⟨r, s, cm, hq⟩ := (C09_domain _ _ _ hj.1 hj.2 hj.1).mpr ⟨by omega, hp.room, hp.value, hp.below, hp.near⟩
  obtain ⟨e1, _⟩ := simulate_live hc hw hk hf hd (adv.query 0) hj.1 hq
  have he : (k.decimals (.token t)).1 = (k.decimals (.token t)).2 := by
    unfold PairSite.decimals
    split
    exacts [hdec, hdec.symm]
  obtain ⟨gas, w', h⟩ := (C56_swap_iff hc hw hk hf hS hd _ none none none adv (adv.query 0)).mpr
    ⟨ho, hb, by simp, by simp, by simp, _, e1, by
      rw [he]; exact ⟨fun h => absurd h (lt_irrefl _), fun h => absurd h (lt_irrefl _), trivial⟩⟩
  refine ⟨gas, w', h, ?_⟩
  have hpaid := ((C07_quote_is_paid hc hw hk hd e1 hS h).2.2.2.1 nofun).2.2
  obtain ⟨_, rfl, _⟩ := PairSite.computeSwap_payout hj.1 hj.2 hj.1 hq
  simpa only [Option.getD_none, payout, gross_same ho] using hpaid

/-- **C79.** Conversely no user can ever swap in a frozen pool, whatever they offer and accept. -/
theorem C79_frozen_refuses {c : Chain} (hc : c.Lawful) {w : World} (hw : Reachable c w) {k : PairSite} (hk : k.Sound c w)
    (hf : Fits k w) (hz : Frozen (k.pool w)) {S : Addr} (hS : c.IsUser S) {t : Addr} {j : AssetInfo}
    (hd : k.Dir (.token t) j) (x : Nat) (bp ms : Option Nat) (dst : Option Str) (adv : Adv) (gas : Nat) :
    ∀ w', runTx c adv gas w S (.exec t (.send k.a x (.swap bp ms dst)) []) ≠ .ok w' := by
  intro w' h
  obtain ⟨f0, f1⟩ := hf.lt hw.tokensOk
  have hj : held w (.token t) k.a < B128 ∧ held w j k.a < B128 := by
    rcases hd with ⟨h, rfl⟩ | ⟨h, rfl⟩
    · rw [← h]; exact ⟨f0, f1⟩
    · rw [← h]; exact ⟨f1, f0⟩
  obtain ⟨_, hb, _, _, _, quote, hq, _⟩ := (C56_swap_iff hc hw hk hf hS hd x bp ms dst adv (adv.query 0)).mp ⟨gas, w', h⟩
  have hx : x < 2 ^ 128 := lt_of_le_of_lt hb (held_lt hw.tokensOk t S)
  have hroom := ((C09_domain _ _ x hj.1 hj.2 hx).mp ⟨_, _, _, quote_price hc hw hk hd hq⟩).2.1
  unfold Frozen PairSite.pool at hz
  rcases hd with ⟨h, rfl⟩ | ⟨h, rfl⟩
  · rw [h] at hz; simp only at hz; omega
  · rw [h] at hz; simp only at hz; rw [Nat.mul_comm (held w k.i0 k.a)] at hz; omega

/-! ## Concrete cases -/

namespace Demo

/-- A token of which `user` holds `2 * 10^30` units. -/
def hugeToken : CosmosMsg := .inst none 1 (.token ⟨[97, 97, 97], [97, 97, 97], 18, [(user, 2 * 10 ^ 30)], none⟩) []

/-- Two such tokens and a pair with `10^9` of each. -/
def hugeSetup : List CosmosMsg :=
  [hugeToken, hugeToken, facMsg, .exec bfac (.createPair (.token tA, .token tB) ⟨[user], 1, 1⟩) [],
   .exec tA (.increaseAllowance bpair (10 ^ 9) none) [], .exec tB (.increaseAllowance bpair (10 ^ 9) none) [],
   .exec bpair (.provideLiquidity (⟨.token tA, 10 ^ 9⟩, ⟨.token tB, 10 ^ 9⟩) none none) []]

def evenPool : World := worldOf (runs hugeSetup genesis)
theorem evenPool_run : runs hugeSetup genesis = .ok evenPool := worldOf_eq (by decide +kernel)
theorem evenPool_reachable : Reachable chain evenPool := genesis_reachable.later (later_runs evenPool_run)
theorem sound_even : siteBig.Sound chain evenPool :=
  sound_of (k := siteBig) (x := tA) (y := tB) (by decide +kernel) ⟨rfl, rfl, rfl⟩ rfl rfl (by decide +kernel)
    (by decide +kernel)

/-- Somebody gives the pair `10^30` of the first token. -/
def lopsided : World := worldOf (runs [.exec tA (.transfer bpair (10 ^ 30)) []] evenPool)
theorem lopsided_run : runs [.exec tA (.transfer bpair (10 ^ 30)) []] evenPool = .ok lopsided :=
  worldOf_eq (by decide +kernel)
theorem lopsided_reachable : Reachable chain lopsided := evenPool_reachable.later (later_runs lopsided_run)
theorem sound_lopsided : siteBig.Sound chain lopsided :=
  sound_of (k := siteBig) (x := tA) (y := tB) (by decide +kernel) ⟨rfl, rfl, rfl⟩ rfl rfl (by decide +kernel)
    (by decide +kernel)

/-- From then on the first token is worthless in this pair: `10^20` of it are taken and nothing is paid. -/
def gaveAway : World := worldOf (runs [.exec tA (.send bpair (10 ^ 20) (.swap none none none)) []] lopsided)
theorem gaveAway_run : runs [.exec tA (.send bpair (10 ^ 20) (.swap none none none)) []] lopsided = .ok gaveAway :=
  worldOf_eq (by decide +kernel)
theorem gaveAway_calls : siteBig.calls chain (traces [.exec tA (.send bpair (10 ^ 20) (.swap none none none)) []] lopsided) =
    [(⟨10 ^ 30 + 10 ^ 9, 10 ^ 9, 10 ^ 9⟩, .swap0 (10 ^ 20))] := by decide +kernel
example : held gaveAway (.token tB) user = held lopsided (.token tB) user := by decide +kernel
example := C79_worthless lawful lopsided_reachable (hist_runs gaveAway_run) sound_lopsided
example := C79_frozen_no_swap lawful lopsided_reachable (hist_runs gaveAway_run) sound_lopsided
example : ¬ ∃ x, Priceable (10 ^ 30 + 10 ^ 9) (10 ^ 9) x ∧ 0 < payout (10 ^ 30 + 10 ^ 9) (10 ^ 9) x := by
  rw [C79_sellable_iff _ _ (by norm_num)]; norm_num

/-- The same gift of the second token: the pool is frozen. -/
def frozen : World := worldOf (runs [.exec tB (.transfer bpair (10 ^ 30)) []] lopsided)
theorem frozen_run : runs [.exec tB (.transfer bpair (10 ^ 30)) []] lopsided = .ok frozen := worldOf_eq (by decide +kernel)
theorem frozen_reachable : Reachable chain frozen := lopsided_reachable.later (later_runs frozen_run)
theorem sound_frozen : siteBig.Sound chain frozen :=
  sound_of (k := siteBig) (x := tA) (y := tB) (by decide +kernel) ⟨rfl, rfl, rfl⟩ rfl rfl (by decide +kernel)
    (by decide +kernel)
theorem is_frozen : Frozen (siteBig.pool frozen) := by unfold Frozen; decide +kernel

theorem fits_big (w : World) : Fits siteBig w := ⟨nofun, nofun⟩

example (x : Nat) := C79_frozen_refuses lawful frozen_reachable sound_frozen (fits_big _) is_frozen isUser_user
  (t := tA) (.inl ⟨rfl, rfl⟩) x none none none idle 20

/-- Another deposit does not help; giving back nine tenths of the LP tokens does. -/
def moreOf : List CosmosMsg :=
  [.exec tA (.increaseAllowance bpair (10 ^ 25) none) [], .exec tB (.increaseAllowance bpair (10 ^ 25) none) [],
   .exec bpair (.provideLiquidity (⟨.token tA, 10 ^ 25⟩, ⟨.token tB, 10 ^ 25⟩) none none) []]
def frozen' : World := worldOf (runs moreOf frozen)
theorem frozen'_run : runs moreOf frozen = .ok frozen' := worldOf_eq (by decide +kernel)
theorem frozen'_calls : siteBig.calls chain (traces moreOf frozen) =
    [(⟨10 ^ 30 + 10 ^ 9, 10 ^ 30 + 10 ^ 9, 10 ^ 9⟩, .deposit (10 ^ 25) (10 ^ 25))] := by decide +kernel
example := C79_frozen_until_withdrawal lawful frozen_reachable (hist_runs frozen'_run) sound_frozen is_frozen
  (by rw [frozen'_calls]; simp [IsWithdrawal])
def thawed : World := worldOf (runs [.exec blp (.send bpair (9 * 10 ^ 8) .withdrawLiquidity) []] frozen)
theorem thawed_run : runs [.exec blp (.send bpair (9 * 10 ^ 8) .withdrawLiquidity) []] frozen = .ok thawed :=
  worldOf_eq (by decide +kernel)
example : ¬ Frozen (siteBig.pool thawed) := by unfold Frozen; decide +kernel

/-- In the even pool a user with as much as the pair can trade. -/
example := C79_can_trade lawful evenPool_reachable sound_even (fits_big _) isUser_user (t := tA) (.inl ⟨rfl, rfl⟩) idle rfl
  (by decide +kernel) (by decide +kernel) (by decide +kernel) (by decide +kernel)
example := C79_one_direction (p := siteBig.pool lopsided) (by decide +kernel) (by decide +kernel) (by decide +kernel)
  (by decide +kernel) (by unfold Frozen; decide +kernel)

theorem scarce_of {w w' : World} {t : Addr} {B : Nat} (h : ((tokenAt w t).map fun p => decide (p.2.totalSupply ≤ B) &&
    (match p.2.mint with | some ⟨_, some k⟩ => decide (k ≤ B) | some _ => false | none => true)) = some true) :
    Scarce B w w' (.token t) := by
  obtain ⟨adm, s, hs, h⟩ := exists_token h
  simp only [Bool.and_eq_true, decide_eq_true_eq] at h
  refine ⟨adm, s, hs, h.1, fun m hm => ?_⟩
  rw [hm] at h
  obtain ⟨_, cap⟩ := m
  cases cap with
  | none => simp at h
  | some k => exact ⟨k, rfl, by simpa using h.2⟩

example := C79_small_never_frozen deployed_reachable (later_runs traded_run) siteAB (B0 := 10 ^ 18) (B1 := 10 ^ 18)
  (scarce_of (by decide +kernel)) (scarce_of (by decide +kernel)) (by norm_num)

end Demo

end Halo
