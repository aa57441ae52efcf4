import Verif.Lemmas.MomentL
import Verif.Props.Exact
import Verif.Props.Hostile
/-! # What other code sees of a pair in the middle of a transaction (C119)

A withdrawal pays out twice and burns, a swap takes and pays, a deposit takes twice and mints: in between the reserves and the number of LP
tokens do not fit together, and code that ran then and read them (a lender that takes LP tokens as collateral, say) would be misled. -/

namespace Halo
open _root_.Halo.Spec

/-- **C119.** Whenever code of anybody but a sound pair, its LP token and its assets runs, at any moment of any transaction, the pair is
whole: what it holds and the number of its LP tokens are those after the deposits, withdrawals and swaps before that moment, each of them
either done entirely or not begun. Excepted is replaced code of the pair or its assets. (The state is the one in which the message is
delivered, before coins sent along are moved to the contract.) -/
theorem C119_whole {c : Chain} (hc : c.Lawful) {w w' : World} (hw : Reachable c w) {pre post : List (World × Frame)} {e : World × Frame}
    (hl : Hist c w (pre ++ e :: post) w') {k : PairSite} (hk : k.Sound c w) {b : Addr} (hb : codeOf c e.1 e.2 = some b)
    (h1 : b ≠ k.a) (h2 : b ≠ k.lt) (h3 : k.i0 ≠ .token b) (h4 : k.i1 ≠ .token b) :
    k.Broken e.1 ∨ (k.Sound c e.1 ∧ Path (k.pool w) (k.calls c pre) (k.pool e.1)) := by
  have hx := hk.ctx hc
  rcases PairSite.Good.moments_hist hx hw (hk.good hc hw) hl pre e post rfl (.inl ⟨b, hb, h1, h2, h3, h4⟩) with h | ⟨h5, h6⟩
  · exact .inl h
  · exact .inr ⟨h5.sound hx, h6⟩

/-- **C119.** The same holds of every attempt at a transaction, whether it goes through in the end or not: also code that is going to fail,
and whose failure somebody may catch (C99), sees nothing half done. -/
theorem C119_attempt {c : Chain} (hc : c.Lawful) {w : World} (hw : Reachable c w) {k : PairSite} (hk : k.Sound c w) {u : Addr}
    (hu : c.IsUser u) (m : CosmosMsg) (adv : Adv) (gas : Nat) {pre post : List (World × Frame)} {e : World × Frame}
    (h : trace c adv gas w [.msg u (plain m)] = pre ++ e :: post) {b : Addr} (hb : codeOf c e.1 e.2 = some b)
    (h1 : b ≠ k.a) (h2 : b ≠ k.lt) (h3 : k.i0 ≠ .token b) (h4 : k.i1 ≠ .token b) :
    k.Broken e.1 ∨ (k.Sound c e.1 ∧ Path (k.pool w) (k.calls c pre) (k.pool e.1)) := by
  have hx := hk.ctx hc
  have hg := hk.good hc hw
  rcases PairSite.Good.moments hx (hg.resolve hw.contractsAt hx) _ hg (hw.sane.start hu m) (hg.quiet_user hw hu m) pre e post h
    (.inl ⟨b, hb, h1, h2, h3, h4⟩) with h | ⟨h5, h6⟩
  · exact .inl h
  · exact .inr ⟨h5.sound hx, h6⟩

/-- **C119.** What such code sees never undervalues the LP tokens against the past: the product of the reserves per squared LP
token is not below that of any earlier time between transactions, unless a swap in between leaked (C01, C94) or the pair was emptied and
begun anew. -/
theorem C119_value {c : Chain} (hc : c.Lawful) {w w' : World} (hw : Reachable c w) {pre post : List (World × Frame)} {e : World × Frame}
    (hl : Hist c w (pre ++ e :: post) w') {k : PairSite} (hk : k.Sound c w) {b : Addr} (hb : codeOf c e.1 e.2 = some b)
    (h1 : b ≠ k.a) (h2 : b ≠ k.lt) (h3 : k.i0 ≠ .token b) (h4 : k.i1 ≠ .token b)
    (hd : ∀ e ∈ k.calls c pre, ¬ Leak e) (hf : ∀ e ∈ k.calls c pre, ¬ First e) :
    k.Broken e.1 ∨ held w k.i0 k.a * held w k.i1 k.a * supplyAt e.1 k.lt ^ 2 ≤
      held e.1 k.i0 k.a * held e.1 k.i1 k.a * supplyAt w k.lt ^ 2 := by
  rcases C119_whole hc hw hl hk hb h1 h2 h3 h4 with h | ⟨_, h⟩
  · exact .inl h
  · exact .inr (h.noLoss_of (fun e he _ ha hS => noLoss_of_noLeak ha hS (hd e he)) hf)

/-- **C119.** What such code sees is backed: if the square of the number of LP tokens was at most the product of the reserves (as it is of a
new pair), it is so whenever such code runs, unless a swap leaked. -/
theorem C119_backed {c : Chain} (hc : c.Lawful) {w w' : World} (hw : Reachable c w) {pre post : List (World × Frame)} {e : World × Frame}
    (hl : Hist c w (pre ++ e :: post) w') {k : PairSite} (hk : k.Sound c w) {b : Addr} (hb : codeOf c e.1 e.2 = some b)
    (h1 : b ≠ k.a) (h2 : b ≠ k.lt) (h3 : k.i0 ≠ .token b) (h4 : k.i1 ≠ .token b) (hd : ∀ e ∈ k.calls c pre, ¬ Leak e)
    (hs : supplyAt w k.lt ^ 2 ≤ held w k.i0 k.a * held w k.i1 k.a) :
    k.Broken e.1 ∨ supplyAt e.1 k.lt ^ 2 ≤ held e.1 k.i0 k.a * held e.1 k.i1 k.a := by
  rcases C119_whole hc hw hl hk hb h1 h2 h3 h4 with h | ⟨_, h⟩
  · exact .inl h
  · exact .inr (h.backed_of (fun e he _ ha hS => noLoss_of_noLeak ha hS (hd e he)) hs)

/-! ## Examples -/

namespace Demo

/-- The foreign contract has 1000 A and 1000 LP tokens of the pair of A and B. -/
def lendSetup : List CosmosMsg := [.exec tA (.transfer tX 1000) [], .exec lpAB (.transfer tX 1000) []]
def lendWorld : World := worldOf (runs lendSetup filledAX)
private theorem lendSetup_run : runs lendSetup filledAX = .ok lendWorld := worldOf_eq (by decide +kernel)
private theorem lend_reachable : Reachable chain lendWorld := filledAX_reachable.later (later_runs lendSetup_run)
private theorem sound_lend : siteAB.Sound chain lendWorld :=
  sound_of (k := siteAB) (x := tA) (y := tB) (by decide +kernel) ⟨rfl, rfl, rfl⟩ rfl rfl (by decide +kernel) (by decide +kernel)
/-- Called, it swaps at the pair, withdraws from it, and calls itself after each. -/
def lendAdv : Adv := { claims 1000 with
  act := fun n a => if n = 19 ∧ a = tX then .ok [plain (.exec tA (.send pAB 500 (.swap none none none)) []), plain (.exec tX (.burn 1) []),
    plain (.exec lpAB (.send pAB 1000 .withdrawLiquidity) []), plain (.exec tX (.burn 2) [])] else .ok [] }
def lendTx : CosmosMsg := .exec tX (.burn 0) []
def lendTrace : List (World × Frame) := trace chain lendAdv 20 lendWorld [.msg user (plain lendTx)]
def afterLend : World := worldOf (runTx chain lendAdv 20 lendWorld user lendTx)
private theorem afterLend_run : runTx chain lendAdv 20 lendWorld user lendTx = .ok afterLend := worldOf_eq (by decide +kernel)
private theorem afterLend_hist : Hist chain lendWorld lendTrace afterLend := .tx _ _ _ _ _ _ _ .refl isUser_user afterLend_run

/-- The moments of the transaction: what the pair holds, its LP tokens, and whether the code of the foreign contract runs. -/
example : lendTrace.map (fun e => ((siteAB.pool e.1).r0, (siteAB.pool e.1).r1, (siteAB.pool e.1).supply, codeOf chain e.1 e.2 == some tX)) =
    [(10000, 20000, 14142, true), (10000, 20000, 14142, false), (10500, 20000, 14142, false), (10500, 20000, 14142, false),
     (10500, 19050, 14142, true), (10500, 19050, 14142, false), (10500, 19050, 14142, false), (10500, 19050, 14142, false),
     (9758, 19050, 14142, false), (9758, 17703, 14142, false), (9758, 17703, 13142, true)] := by decide +kernel

private theorem lend_len : lendTrace.length = 11 := by decide +kernel
/-- The last moment, at which the foreign contract runs after a swap and a withdrawal in the same transaction. -/
def lastMoment : World × Frame := lendTrace[10]'(by rw [lend_len]; omega)
private theorem lend_split : lendTrace = lendTrace.take 10 ++ lastMoment :: lendTrace.drop 11 := by simp [lastMoment]
private theorem lend_hist : Hist chain lendWorld (lendTrace.take 10 ++ lastMoment :: lendTrace.drop 11) afterLend := by
  rw [← lend_split]
  exact afterLend_hist
private theorem lend_code : codeOf chain lastMoment.1 lastMoment.2 = some tX := by decide +kernel
private theorem lend_calls : siteAB.calls chain (lendTrace.take 10) =
    [(⟨10000, 20000, 14142⟩, .swap0 500), (⟨10500, 19050, 14142⟩, .withdraw 1000)] := by decide +kernel

example := C119_whole lawful lend_reachable lend_hist sound_lend lend_code (by decide +kernel) (by decide +kernel) (by decide +kernel)
  (by decide +kernel)
example := C119_backed lawful lend_reachable lend_hist sound_lend lend_code (by decide +kernel) (by decide +kernel) (by decide +kernel)
  (by decide +kernel) (by rw [lend_calls]; simp [Leak, Slip]) (by decide +kernel)
example : siteAB.Broken lastMoment.1 ∨ 10000 * 20000 * 13142 ^ 2 ≤ 9758 * 17703 * 14142 ^ 2 := by
  have h := C119_value lawful lend_reachable lend_hist sound_lend lend_code (by decide +kernel) (by decide +kernel) (by decide +kernel)
    (by decide +kernel) (by rw [lend_calls]; simp [Leak, Slip]) (by rw [lend_calls]; simp [First])
  have e1 : held lendWorld siteAB.i0 siteAB.a = 10000 ∧ held lendWorld siteAB.i1 siteAB.a = 20000 ∧ supplyAt lendWorld siteAB.lt = 14142 ∧
      held lastMoment.1 siteAB.i0 siteAB.a = 9758 ∧ held lastMoment.1 siteAB.i1 siteAB.a = 17703 ∧
      supplyAt lastMoment.1 siteAB.lt = 13142 := by decide +kernel
  obtain ⟨a1, a2, a3, a4, a5, a6⟩ := e1
  rwa [a1, a2, a3, a4, a5, a6] at h

/-- The same, but the last call of the contract fails, and with it the transaction. -/
def sulkAdv : Adv := { lendAdv with act := fun n a => if n = 9 then .error (.other 1) else lendAdv.act n a }
def sulkTrace : List (World × Frame) := trace chain sulkAdv 20 lendWorld [.msg user (plain lendTx)]
example : isOk (runTx chain sulkAdv 20 lendWorld user lendTx) = false := by decide +kernel
private theorem sulk_len : sulkTrace.length = 11 := by decide +kernel
def sulkMoment : World × Frame := sulkTrace[10]'(by rw [sulk_len]; omega)
private theorem sulk_split : sulkTrace = sulkTrace.take 10 ++ sulkMoment :: sulkTrace.drop 11 := by simp [sulkMoment]
private theorem sulk_code : codeOf chain sulkMoment.1 sulkMoment.2 = some tX := by decide +kernel
example := C119_attempt lawful lend_reachable sound_lend isUser_user lendTx sulkAdv 20 sulk_split sulk_code (by decide +kernel)
  (by decide +kernel) (by decide +kernel) (by decide +kernel)
example : siteAB.calls chain (sulkTrace.take 10) = [(⟨10000, 20000, 14142⟩, .swap0 500), (⟨10500, 19050, 14142⟩, .withdraw 1000)] := by
  decide +kernel

/-- The exception for the pair's own LP token is needed: just before it burns, after both payouts, the inequality of `C119_value` does not
hold and the LP tokens are not backed. -/
def burnMoment : World × Frame := lendTrace[9]'(by rw [lend_len]; omega)
example : codeOf chain burnMoment.1 burnMoment.2 = some lpAB ∧
    held burnMoment.1 siteAB.i0 siteAB.a * held burnMoment.1 siteAB.i1 siteAB.a * supplyAt lendWorld siteAB.lt ^ 2 <
      held lendWorld siteAB.i0 siteAB.a * held lendWorld siteAB.i1 siteAB.a * supplyAt burnMoment.1 siteAB.lt ^ 2 ∧
    held burnMoment.1 siteAB.i0 siteAB.a * held burnMoment.1 siteAB.i1 siteAB.a < supplyAt burnMoment.1 siteAB.lt ^ 2 := by
  decide +kernel

end Demo

end Halo
