import Verif.Props.Live
import Verif.Props.Registry
/-! # Exact versions of claims about first deposits (C14, C17, C57) and about identical assets (C44) -/

namespace Halo
open _root_.Halo.Spec

/-- All LP tokens together are worth the whole reserve. -/
theorem refund_all {r S : Nat} (hS : S ≠ 0) : refund r S S = r := by
  unfold refund
  rw [Nat.mul_comm S, Nat.mul_div_cancel _ (Nat.pos_of_ne_zero hS), Nat.mul_div_cancel _ (by norm_num)]

/-- **C17.** Providing liquidity to a pair with LP tokens outstanding and withdrawing exactly the LP tokens minted leaves the user
with at most as much of either asset as before. -/
theorem C17_no_gain {c : Chain} (hc : c.Lawful) {w w1 w2 : World} (hw : Reachable c w) {k : PairSite}
    (hk : k.Sound c w) {assets : Asset × Asset} {tol : Option Nat} {funds : List Coin} {adv adv' : Adv}
    {gas gas' : Nat} {S : Addr} {s : Nat} (hS : c.IsUser S)
    (h1 : runTx c adv gas w S (.exec k.a (.provideLiquidity assets tol none) funds) = .ok w1)
    (hs : held w1 (.token k.lt) S = held w (.token k.lt) S + s)
    (h2 : runTx c adv' gas' w1 S (.exec k.lt (.send k.a s .withdrawLiquidity) []) = .ok w2)
    (hp : supplyAt w k.lt ≠ 0) :
    held w2 k.i0 S ≤ held w k.i0 S ∧ held w2 k.i1 S ≤ held w k.i1 S :=
  C17_tx hc hw hk hS h1 hs h2 (.inl hp)

/-- C17 when there are no LP tokens: whoever deposits first and withdraws again gets the deposit back in full, and all that was
donated to the pair before. -/
theorem C17_first_takes_all {c : Chain} (hc : c.Lawful) {w w1 w2 : World} (hw : Reachable c w) {k : PairSite}
    (hk : k.Sound c w) {assets : Asset × Asset} {tol : Option Nat} {funds : List Coin} {adv adv' : Adv}
    {gas gas' : Nat} {S : Addr} {s : Nat} (hS : c.IsUser S)
    (h1 : runTx c adv gas w S (.exec k.a (.provideLiquidity assets tol none) funds) = .ok w1)
    (hs : held w1 (.token k.lt) S = held w (.token k.lt) S + s)
    (h2 : runTx c adv' gas' w1 S (.exec k.lt (.send k.a s .withdrawLiquidity) []) = .ok w2)
    (hp : supplyAt w k.lt = 0) :
    held w2 k.i0 S = held w k.i0 S + held w k.i0 k.a ∧ held w2 k.i1 S = held w k.i1 S + held w k.i1 k.a ∧
    held w2 k.i0 k.a = 0 ∧ held w2 k.i1 k.a = 0 ∧ supplyAt w2 k.lt = 0 := by
  obtain ⟨d0, d1, s', _, hs', hk1, _, _, _, hd⟩ := deposit_tx hc hw hk hS h1
  have hw1 : Reachable c w1 := .step _ _ hw (.tx _ _ _ _ _ _ hS h1)
  obtain ⟨hT, _, _, _, _, hwd⟩ := withdraw_tx hc hw1 hk1 hS h2
  have e : s' = s := by
    have := hd.lp
    simp only [Option.getD_none] at this
    omega
  subst e
  have hsup := hd.supply
  rw [hp, Nat.zero_add] at hsup
  rw [hsup] at hwd hT
  rw [refund_all hT, refund_all hT] at hwd
  have := hwd.user0; have := hwd.user1; have := hwd.pair0; have := hwd.pair1; have := hwd.supply
  have := hd.user0; have := hd.user1; have := hd.pair0; have := hd.pair1
  omega

/-- C17, exactly: depositing and withdrawing again gains some of an asset if and only if there were no LP tokens and the pair held
some of that asset. -/
theorem C17_gain_iff {c : Chain} (hc : c.Lawful) {w w1 w2 : World} (hw : Reachable c w) {k : PairSite}
    (hk : k.Sound c w) {assets : Asset × Asset} {tol : Option Nat} {funds : List Coin} {adv adv' : Adv}
    {gas gas' : Nat} {S : Addr} {s : Nat} (hS : c.IsUser S)
    (h1 : runTx c adv gas w S (.exec k.a (.provideLiquidity assets tol none) funds) = .ok w1)
    (hs : held w1 (.token k.lt) S = held w (.token k.lt) S + s)
    (h2 : runTx c adv' gas' w1 S (.exec k.lt (.send k.a s .withdrawLiquidity) []) = .ok w2) :
    (held w k.i0 S < held w2 k.i0 S ↔ supplyAt w k.lt = 0 ∧ held w k.i0 k.a ≠ 0) ∧
    (held w k.i1 S < held w2 k.i1 S ↔ supplyAt w k.lt = 0 ∧ held w k.i1 k.a ≠ 0) := by
  by_cases hp : supplyAt w k.lt = 0
  · obtain ⟨e0, e1, _⟩ := C17_first_takes_all hc hw hk hS h1 hs h2 hp
    rw [e0, e1]
    omega
  · obtain ⟨e0, e1⟩ := C17_no_gain hc hw hk hS h1 hs h2 hp
    omega

/-- C57 and C14, exactly, for a pair without LP tokens, one of whose reserves is empty: a deposit for which the user has everything
ready goes through if and only if the user is whitelisted, both amounts meet the minimums and are not zero, their product fits
128 bits, and no slippage tolerance is given. Missing from C57 and C14: large products, and deposits with a tolerance. -/
theorem C57_first_deposit_exact_partial {c : Chain} (hc : c.Lawful) {w : World} (hw : Reachable c w) {k : PairSite}
    (hk : k.Sound c w) {S : Addr} (hS : c.IsUser S) {assets : Asset × Asset} {d0 d1 : Nat} (hn : Names k assets d0 d1)
    {funds : List Coin} (hr : Ready k S funds d0 d1 w) (hf : FitsWith k d0 d1 w) {receiver : Option Str}
    (hrc : ∀ s, receiver = some s → c.api.validate s = .ok s) (adv : Adv) {gas : Nat} (hg : 4 ≤ gas)
    (hT : supplyAt w k.lt = 0) (he : held w k.i0 k.a = 0 ∨ held w k.i1 k.a = 0) (tol : Option Nat) :
    (∃ w', runTx c adv gas w S (.exec k.a (.provideLiquidity assets tol receiver) funds) = .ok w') ↔
      S ∈ k.s.requirements.whitelist ∧ k.s.requirements.firstAssetMinimum ≤ d0 ∧
      k.s.requirements.secondAssetMinimum ≤ d1 ∧ 0 < d0 ∧ 0 < d1 ∧ d0 * d1 < 2 ^ 128 ∧ tol = none := by
  constructor
  · rintro ⟨w', h⟩
    obtain ⟨e0, e1, s, hn', hs0, _, htol, hsl, hsh, _⟩ := deposit_tx hc hw hk hS h
    have hne := (hk.ctx hc).ne
    have : e0 = d0 ∧ e1 = d1 := by
      rcases hn with rfl | rfl <;> rcases hn' with h | h <;> simp only [Prod.mk.injEq, Asset.mk.injEq] at h
      · exact ⟨h.1.2.symm, h.2.2.symm⟩
      · exact absurd h.1.1 hne
      · exact absurd h.2.1 hne
      · exact ⟨h.2.2.symm, h.1.2.symm⟩
    obtain ⟨rfl, rfl⟩ := this
    rw [hT] at hsh
    unfold Pair.shareFor at hsh
    simp only [↓reduceIte, bind_eq_ok, require_eq_ok, Uint128.mulChk_eq_ok, pure_eq_ok, Uint128.isqrt] at hsh
    obtain ⟨_, g1, _, g2, _, ⟨hlt, rfl⟩, rfl⟩ := hsh
    simp only [not_or, Nat.not_lt] at g2
    have hpos : 0 < e0 * e1 := by
      refine Nat.pos_of_ne_zero fun h => hs0 ?_
      rw [h]; rfl
    refine ⟨by simpa using g1, by omega, by omega, Nat.pos_of_mul_pos_right hpos, Nat.pos_of_mul_pos_left hpos, hlt, ?_⟩
    cases tol with
    | none => rfl
    | some t =>
      obtain ⟨_, _, _, p0, p1, _⟩ := Pair.slippage_inv (htol t rfl) hsl
      omega
  · rintro ⟨h1, h2, h3, h4, h5, h6, rfl⟩
    exact C57_first_deposit_live_partial hc hw hk hS hn hr hf hrc adv hg hT h1 h2 h3 (Nat.mul_pos h4 h5) h6

/-- C44, exactly: an accepted `CreatePair` joins an asset with itself if and only if the two assets are tokens given by two
different spellings of the same address. Missing from C44: these requests (`C44_counterexample`). -/
theorem C44_exact_partial {api : Api} {q : Querier} {me : Addr} {s s' : Factory.State} {sender : Addr}
    {x y : AssetInfo} {req : Requirements} {r : Response}
    (h : Factory.execute api q me s sender (.createPair (x, y) req) = .ok (s', r)) :
    ∃ r0 r1, x.toRaw api = .ok r0 ∧ y.toRaw api = .ok r1 ∧
      (r0 = r1 ↔ ∃ t u b, x = .token t ∧ y = .token u ∧ t ≠ u ∧ api.canon t = some b ∧ api.canon u = some b) := by
  cases Factory.execute_inv h with
  | create _ _ d0 d1 r0 r1 hne h0 h1 hr0 hr1 hnew =>
    refine ⟨r0, r1, hr0, hr1, ?_⟩
    constructor
    · rintro rfl
      cases x with
      | native d =>
        cases hr0
        cases y with
        | native d' => cases hr1; exact absurd rfl hne
        | token t =>
          simp only [AssetInfo.toRaw, bind_eq_ok, pure_eq_ok] at hr1
          obtain ⟨_, _, h⟩ := hr1
          cases h
      | token t =>
        simp only [AssetInfo.toRaw, Api.canonicalize, bind_eq_ok, okOr_eq_ok, pure_eq_ok] at hr0
        obtain ⟨b, h2, rfl⟩ := hr0
        cases y with
        | native d' => cases hr1
        | token t' =>
          simp only [AssetInfo.toRaw, Api.canonicalize, bind_eq_ok, okOr_eq_ok, pure_eq_ok] at hr1
          obtain ⟨b', h3, h4⟩ := hr1
          cases h4
          exact ⟨t, t', b, rfl, rfl, fun e => hne (by rw [e]), h2, h3⟩
    · rintro ⟨t, u, b, rfl, rfl, _, h2, h3⟩
      simp only [AssetInfo.toRaw, Api.canonicalize, bind_eq_ok, okOr_eq_ok, pure_eq_ok] at hr0 hr1
      obtain ⟨b0, e0, rfl⟩ := hr0
      obtain ⟨b1, e1, rfl⟩ := hr1
      rw [h2] at e0
      rw [h3] at e1
      cases e0; cases e1
      rfl

namespace Demo

example := C57_first_deposit_exact_partial lawful fresh_reachable sound_fresh isUser_user (.inr rfl) ready_fresh
  ⟨(fun _ h => nomatch h), (fun _ h => nomatch h)⟩ (receiver := none) (by simp) idle (gas := 4) (by decide) (by decide +kernel)
  (by decide +kernel)

/-- `user` gives the fresh pair 300 A, deposits 1000 A and 2001 B, and withdraws. -/
def gifted : World := worldOf (runs [.exec tA (.transfer pAB 300) []] fresh)
theorem gifted_run : runs [.exec tA (.transfer pAB 300) []] fresh = .ok gifted := worldOf_eq (by decide +kernel)
theorem gifted_reachable : Reachable chain gifted := fresh_reachable.later (later_runs gifted_run)
theorem sound_gifted : siteAB.Sound chain gifted :=
  sound_of (k := siteAB) (x := tA) (y := tB) (by decide +kernel) ⟨rfl, rfl, rfl⟩ rfl rfl (by decide +kernel)
    (by decide +kernel)
def openIt : CosmosMsg := .exec pAB (.provideLiquidity (⟨.token tB, 2000⟩, ⟨.token tA, 1000⟩) none none) []
def opened : World := worldOf (runTx chain idle 20 gifted user openIt)
theorem opened_run : runTx chain idle 20 gifted user openIt = .ok opened := worldOf_eq (by decide +kernel)
def closed : World := worldOf (runTx chain idle 20 opened user (.exec lpAB (.send pAB 1414 .withdrawLiquidity) []))
theorem closed_run : runTx chain idle 20 opened user (.exec lpAB (.send pAB 1414 .withdrawLiquidity) []) = .ok closed :=
  worldOf_eq (by decide +kernel)

example := C17_first_takes_all lawful gifted_reachable sound_gifted isUser_user opened_run (s := 1414) (by decide +kernel)
  closed_run (by decide +kernel)
/-- The gain of 300 A. -/
example : held gifted (.token tA) user < held closed (.token tA) user :=
  (C17_gain_iff lawful gifted_reachable sound_gifted isUser_user opened_run (s := 1414) (by decide +kernel)
    closed_run).1.mpr ⟨by decide +kernel, by decide +kernel⟩
example := C17_no_gain lawful allowed_reachable sound_allowed isUser_user added_run (s := 1414) (by decide +kernel)
  back_run (by decide +kernel)

/-- A `CreatePair` that is accepted, as `C44_exact_partial` and `C44_normal_form_partial` assume. -/
example : ∃ s' r, Factory.execute api (querier chain (q 0 0 0) deployed) fac (facState deployed fac) user
    (.createPair (.token tA, .token tC) ⟨[user], 1, 1⟩) = .ok (s', r) := by
  have h : (val (Factory.execute api (querier chain (q 0 0 0) deployed) fac (facState deployed fac) user
    (.createPair (.token tA, .token tC) ⟨[user], 1, 1⟩))).isSome = true := by decide +kernel
  obtain ⟨⟨s', r⟩, h⟩ := Option.isSome_iff_exists.mp h
  exact ⟨s', r, val_eq h⟩

end Demo
end Halo
