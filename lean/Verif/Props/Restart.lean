import Verif.Props.Live
import Verif.Props.Cw20
import Verif.Props.Gate
/-! # C111: a pool without owners goes to whoever starts the pair again -/

namespace Halo
open _root_.Halo.Spec

namespace RestartL

theorem held_le_supply {c : Chain} {w : World} (hw : Reachable c w) (t b : Addr) : held w (.token t) b ≤ supplyAt w t := by
  simp only [held, supplyAt]
  split
  · next h => exact (hw.tokensOk _ _ _ h).le_supply b
  · exact Nat.le_refl _

end RestartL

open RestartL

/-- **C111.** A pair that holds `p0`, `p1` while there are no LP tokens: whoever on the whitelist starts it again gets, by withdrawing at
once, what they paid in and all of `p0`, `p1`; the pair is left with nothing, without LP tokens. -/
theorem C111_restart_collects {c : Chain} (hc : c.Lawful) {w : World} (hw : Reachable c w) {k : PairSite} (hk : k.Sound c w) {S : Addr}
    (hS : c.IsUser S) {assets : Asset × Asset} {d0 d1 : Nat} (hn : Names k assets d0 d1) {funds : List Coin}
    (hr : Ready k S funds d0 d1 w) (hf : FitsWith k d0 d1 w) (adv : Adv) (hT : supplyAt w k.lt = 0)
    (hwl : S ∈ k.s.requirements.whitelist) (m0 : k.s.requirements.firstAssetMinimum ≤ d0)
    (m1 : k.s.requirements.secondAssetMinimum ≤ d1) (hpos : 0 < d0 * d1) (hlt : d0 * d1 < 2 ^ 128) :
    ∃ w1 w2, runTx c adv 4 w S (.exec k.a (.provideLiquidity assets none none) funds) = .ok w1 ∧
      runTx c adv 5 w1 S (.exec k.lt (.send k.a (Nat.sqrt (d0 * d1)) .withdrawLiquidity) []) = .ok w2 ∧
      held w2 k.i0 S = held w k.i0 S + held w k.i0 k.a ∧ held w2 k.i1 S = held w k.i1 S + held w k.i1 k.a ∧
      held w2 k.i0 k.a = 0 ∧ held w2 k.i1 k.a = 0 ∧ supplyAt w2 k.lt = 0 := by
  obtain ⟨w1, h1⟩ := C57_first_deposit_live_partial hc hw hk hS hn hr hf (receiver := none) (fun _ e => nomatch e) adv (gas := 4)
    (Nat.le_refl _) hT hwl m0 m1 hpos hlt
  obtain ⟨e0, e1, s, hn', hs, hk1, _, _, hsh, hd⟩ := deposit_tx hc hw hk hS h1
  obtain ⟨rfl, rfl⟩ : e0 = d0 ∧ e1 = d1 := by
    have hne := (hk.ctx hc).ne
    rcases hn with rfl | rfl <;> rcases hn' with h | h <;> simp only [Prod.mk.injEq, Asset.mk.injEq] at h
    · exact ⟨h.1.2.symm, h.2.2.symm⟩
    · exact absurd h.1.1 hne
    · exact absurd h.1.1.symm hne
    · exact ⟨h.2.2.symm, h.1.2.symm⟩
  have es : s = Nat.sqrt (e0 * e1) := by
    unfold Pair.shareFor at hsh
    simp only [hT, ↓reduceIte, bind_eq_ok, require_eq_ok, Uint128.mulChk_eq_ok, pure_eq_ok, Uint128.isqrt] at hsh
    obtain ⟨_, _, _, _, _, ⟨_, rfl⟩, h⟩ := hsh
    exact h.symm
  have hw1 : Reachable c w1 := .step _ _ hw (.tx _ _ _ _ _ _ hS h1)
  have l0 : held w (.token k.lt) S = 0 := Nat.eq_zero_of_le_zero (hT ▸ held_le_supply hw k.lt S)
  have eS : supplyAt w1 k.lt = s := by rw [hd.supply, hT, Nat.zero_add]
  have el : held w1 (.token k.lt) S = s := by
    have := hd.lp
    rw [Option.getD_none, l0, Nat.zero_add] at this
    exact this
  have hp0 : 0 < e0 := Nat.pos_of_mul_pos_right hpos
  have hp1 : 0 < e1 := Nat.pos_of_mul_pos_left hpos
  have q0 := hd.pair0
  have q1 := hd.pair1
  have u0 := hd.user0
  have u1 := hd.user1
  have hfit : Fits k w1 := by
    refine ⟨fun d e => ?_, fun d e => ?_⟩
    · have := hf.1 d e
      have q := q0
      rw [e] at q
      change w1.bal d k.a = w.bal d k.a + e0 at q
      omega
    · have := hf.2 d e
      have q := q1
      rw [e] at q
      change w1.bal d k.a = w.bal d k.a + e1 at q
      omega
  obtain ⟨w2, h2, a1, a2, a3, a4, a5⟩ := C55_withdraw_all hc hw1 hk1 hfit hS adv (gas := 5) (Nat.le_refl _) (by rw [eS]; exact hs)
    (by rw [eS, el]) (by omega) (by omega)
  rw [eS, es] at h2
  exact ⟨w1, w2, h1, h2, by omega, by omega, a1, a2, a3⟩

/-- **C111.** A pair comes to hold assets while there are no LP tokens when the holder of all LP tokens burns them: this goes through and
changes nothing the pair holds. -/
theorem C111_orphan {c : Chain} (hc : c.Lawful) {w : World} (hw : Reachable c w) {k : PairSite} (hk : k.Sound c w) {S : Addr}
    (hS : c.IsUser S) (hT : supplyAt w k.lt ≠ 0) (hall : held w (.token k.lt) S = supplyAt w k.lt) (adv : Adv) :
    ∃ gas w', runTx c adv gas w S (.exec k.lt (.burn (supplyAt w k.lt)) []) = .ok w' ∧ k.Sound c w' ∧ supplyAt w' k.lt = 0 ∧
      ∀ i, i ≠ .token k.lt → ∀ b, held w' i b = held w i b := by
  obtain ⟨st, ht, _⟩ := (hk.good hc hw).lp
  have e1 : supplyAt w k.lt = st.totalSupply := by simp only [supplyAt, ht]
  have e2 : held w (.token k.lt) S = st.balances.getD0 S := by simp only [held, ht]
  have hlt : st.totalSupply < 2 ^ 128 := (hw.tokensOk _ _ _ ht).fits
  obtain ⟨gas, w', h⟩ := (C63_tx_iff hc hw hS ht (m := .burn (supplyAt w k.lt)) (by simpa [ExecMsg.inRange, e1] using hlt) rfl adv).mpr
    ⟨hT, le_of_eq (hall.symm.trans e2)⟩
  obtain ⟨st', h1, h2, _, h4, h5, _⟩ := C63_tx_effect hc hw hS ht rfl h
  have hrest : ∀ i, i ≠ .token k.lt → ∀ b, held w' i b = held w i b := by
    intro i hi b
    cases i with
    | native d => simp only [held, World.bal, h5]
    | token t => simp only [held, h4 t (fun e => hi (e ▸ rfl))]
  refine ⟨gas, w', h, ?_, ?_, hrest⟩
  · refine ⟨⟨hk.adm, ?_⟩, hk.info0, hk.info1, hk.lp, hk.ne, hk.lp0, hk.lp1, ?_, ?_, ?_⟩
    · rw [h4 k.a (fun e => by have := hk.pair; rw [e, ht] at this; injection this with this; injection this with _ this; cases this)]
      exact hk.pair
    · intro t e
      rw [h4 t (fun e' => hk.lp0 (e.trans (e' ▸ rfl)))]
      exact hk.asset0 t e
    · intro t e
      rw [h4 t (fun e' => hk.lp1 (e.trans (e' ▸ rfl)))]
      exact hk.asset1 t e
    · rintro t ⟨⟩
      exact ⟨_, _, h1⟩
  · have : st'.totalSupply = st.totalSupply - supplyAt w k.lt := congrArg Book.supply h2
    simp only [supplyAt, h1] at this ⊢
    rw [this, ht]
    exact Nat.sub_self _

namespace Demo

def leave : CosmosMsg := .exec lpAB (.burn (supplyAt allowed lpAB)) []
def orphan : World := worldOf (runTx chain idle 20 allowed user leave)

example := C111_orphan lawful allowed_reachable sound_allowed isUser_user (by decide +kernel) (by decide +kernel) idle

private theorem orphan_run : runTx chain idle 20 allowed user leave = .ok orphan := worldOf_eq (by decide +kernel)
private theorem orphan_reachable : Reachable chain orphan := .step _ _ allowed_reachable (.tx _ _ _ _ _ _ isUser_user orphan_run)
private theorem orphan_sound : siteAB.Sound chain orphan :=
  sound_of (k := siteAB) (x := tA) (y := tB) (by decide +kernel) ⟨rfl, rfl, rfl⟩ rfl rfl (by decide +kernel) (by decide +kernel)

/-- The pool is worth having. -/
example : held orphan (.token tA) pAB ≠ 0 ∧ held orphan (.token tB) pAB ≠ 0 := ⟨by decide +kernel, by decide +kernel⟩
example := C111_restart_collects lawful orphan_reachable orphan_sound isUser_user (assets := (⟨.token tB, 2001⟩, ⟨.token tA, 1000⟩)) (.inr rfl)
  (ready_of (by decide +kernel) (by decide +kernel) (mayTake_of (by decide +kernel)) (mayTake_of (by decide +kernel)))
  ⟨(fun _ h => nomatch h), (fun _ h => nomatch h)⟩ idle (by decide +kernel)
  (by decide +kernel) (by decide +kernel) (by decide +kernel) (by decide +kernel) (by decide +kernel)

end Demo
end Halo
