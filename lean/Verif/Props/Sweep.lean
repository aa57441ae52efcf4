import Verif.Props.Route
/-! # Tokens left in the router belong to whoever asks first (C62) -/

namespace Halo
open _root_.Halo.Spec

/-- User `S` asks the router `rou`, without sending anything, to perform a route over different pairs with well-behaved
assets, each hop offering what the previous one bought; the pairs are those the router's factory names; of the assets sold
on the route the router holds at most the first; the receiver is neither the router nor one of the pairs. -/
structure OnSweep (c : Chain) (w : World) (S rou f : Addr) (adm fadm : Option Addr) (s : Router.State)
    (fs : Factory.State) (ops : List SwapOp) (ks : List PairSite) (first last : SwapOp) (dst : Option Str) : Prop where
  user : c.IsUser S
  router : w.contracts rou = some ⟨adm, .router s⟩
  names : c.api.human s.haloFactory = some f
  factory : w.contracts f = some ⟨fadm, .factory fs⟩
  pairs : List.Forall₂ (fun op k => k.Sound c w ∧ k.Dir op.offer op.ask ∧
      ∀ info, Factory.queryPair c.api fs (op.offer, op.ask) = .ok info → info.contractAddr = k.a) ops ks
  nodup : (ks.map PairSite.a).Nodup
  con : ops.IsChain fun a b => a.ask = b.offer
  head : ops.head? = some first
  tail : ops.getLast? = some last
  empty : ∀ op ∈ ops, op.offer ≠ first.offer → held w op.offer rou = 0
  rcv_rou : dst.getD S ≠ rou
  rcv_pairs : ∀ k ∈ ks, dst.getD S ≠ k.a

namespace OnSweep

variable {c : Chain} {w : World} {S rou f : Addr} {adm fadm : Option Addr} {s : Router.State}
    {fs : Factory.State} {ops : List SwapOp} {ks : List PairSite} {first last : SwapOp} {dst : Option Str}

private theorem start (hc : c.Lawful) (hw : Reachable c w) (h : OnSweep c w S rou f adm fadm s fs ops ks first last dst) :
    RouteSt c rou f (dst.getD S) adm fadm s fs w ops ks (held w first.offer rou) := by
  refine ⟨h.router, h.factory, h.pairs.imp fun op k hh => ?_, h.nodup, h.con, h.rcv_rou, ?_, ?_, ?_⟩
  · exact ⟨hh.1.ctx hc, hh.1.good hc hw, (addr_facts hc hw hh.1.pair).1, human_self hc hw hh.1.pair, hh.2.1, hh.2.2⟩
  · intro hm
    obtain ⟨k, hk, e⟩ := List.mem_map.mp hm
    exact h.rcv_pairs k hk e.symm
  · intro op ho
    have hf := h.head
    rw [ho] at hf
    cases hf
    rfl
  · intro op0 ho op hop hne
    have hf := h.head
    rw [ho] at hf
    cases hf
    exact h.empty op hop hne

/-- The request becomes the hops. -/
private theorem parts (hc : c.Lawful) (hw : Reachable c w) (h : OnSweep c w S rou f adm fadm s fs ops ks first last dst)
    {adv : Adv} {gas : Nat} {w' : World}
    (hrun : runTx c adv gas w S (.exec rou (.executeSwapOperations ops none dst) []) = .ok w') :
    (∀ d, dst = some d → c.api.validate d = .ok d) ∧ ∃ n m y,
      run c adv n w ((Router.hopMsgs rou (dst.getD S) ops).map fun m => .msg rou (plain m)) = .ok (m, w') ∧
      Legs c fs w ops ks (held w first.offer rou) y := by
  obtain ⟨n, hr⟩ := runTx_inv hrun
  have hres := (addr_facts hc hw h.router).1
  have hst := h.start hc hw
  obtain ⟨n1, v, fs1, rfl, hs, hrun⟩ := run_cons_inv hr
  obtain ⟨r, hmv, hex, rfl⟩ := rou_exec hres hst.router (step_inv hs)
  rw [moveCoins_nil, eq_comm] at hmv
  subst hmv
  obtain ⟨hdst, last', hl', _, ⟨_, rfl⟩ | ⟨mm, prev, e, _, _⟩⟩ := Router.request_inv .direct hex
  · have hr1 : run c adv n1 w ((Router.hopMsgs rou (dst.getD S) ops).map fun m => .msg rou (plain m)) = .ok (n, w') := by
      simpa [frames, replyFrame, Function.comp_def] using hrun
    obtain ⟨y, hy⟩ := hst.needs hres h.names hr1
    exact ⟨hdst, n1, n, y, hr1, hy⟩
  · cases e

private theorem goes (hc : c.Lawful) (hw : Reachable c w) (h : OnSweep c w S rou f adm fadm s fs ops ks first last dst)
    (hfit : ∀ k ∈ ks, Fits k w) (adv : Adv) (n : Nat) {y : Nat}
    (hdst : ∀ d, dst = some d → c.api.validate d = .ok d) (hl : Legs c fs w ops ks (held w first.offer rou) y) :
    ∃ n' w', run c adv (n + 4 * ops.length + 1) w
      [.msg S (plain (.exec rou (.executeSwapOperations ops none dst) []))] = .ok (n', w') := by
  have hres := (addr_facts hc hw h.router).1
  have hrcv : c.api.validate (dst.getD S) = .ok (dst.getD S) := by
    cases dst with
    | none => exact h.user.2
    | some d => exact hdst d rfl
  have hst := h.start hc hw
  obtain ⟨⟨s1, r⟩, hex⟩ := (C34_accepted_iff (api := c.api) (q := querier c (adv.query (n + 4 * ops.length)) w)
    (me := rou) (sender := S) (s := s) (ops := ops) (mn := none) (dst := dst)).mpr
    ⟨hdst, last, h.tail, resold_of_connected h.con h.tail, .inl rfl⟩
  have hs2 := step_router_of (adv := adv) (n := n + 4 * ops.length) (sender := S) hres h.router rfl hex
  obtain ⟨m, u, hnm, hrun⟩ := hst.live adv hres h.names hrcv n hw.tokensOk (fun k hk => (hfit k hk).lt hw.tokensOk) hl
  obtain ⟨_, last', hl', _, ⟨_, rfl⟩ | ⟨mm, prev, e, _, _⟩⟩ := Router.request_inv .direct hex
  · refine ⟨m, u, run_cons_of hs2 ?_⟩
    simpa [frames, replyFrame, Function.comp_def] using hrun
  · cases e

end OnSweep

/-- **C62.** The request goes through exactly when what the router holds of the first asset is quoted hop by hop: nobody's
consent is needed. -/
theorem C62_sweep_iff {c : Chain} (hc : c.Lawful) {w : World} (hw : Reachable c w) {S rou f : Addr}
    {adm fadm : Option Addr} {s : Router.State} {fs : Factory.State} {ops : List SwapOp} {ks : List PairSite}
    {first last : SwapOp} {dst : Option Str} (h : OnSweep c w S rou f adm fadm s fs ops ks first last dst)
    (hfit : ∀ k ∈ ks, Fits k w) {t : Addr} (ht : first.offer = .token t) (adv : Adv) (q : Querier) :
    (∃ gas w', runTx c adv gas w S (.exec rou (.executeSwapOperations ops none dst) []) = .ok w') ↔
      (∀ d, dst = some d → c.api.validate d = .ok d) ∧
      ∃ y, HopByHop (querier c q w) f ops ks (held w (.token t) rou) y := by
  have hfr := hc.resolve_human h.names
  have hlt := held_lt hw.tokensOk t rou
  constructor
  · rintro ⟨gas, w', hrun⟩
    obtain ⟨h1, n, m, y, _, h2⟩ := h.parts hc hw hrun
    rw [ht] at h2
    exact ⟨h1, y, (legs_of hc hw h.factory hfr h.pairs hfit hlt).mpr h2⟩
  · rintro ⟨h3, y, h4⟩
    have hl := (legs_of hc hw h.factory hfr h.pairs hfit hlt).mp h4
    rw [← ht] at hl
    exact ⟨_, runTx_of (h.goes hc hw hfit adv 0 h3 hl)⟩

/-- **C62.** When it goes through, all the router held of the first asset is sold and the receiver gets the proceeds; the
sender of the message pays nothing. -/
theorem C62_sweep_pays {c : Chain} (hc : c.Lawful) {w w' : World} (hw : Reachable c w) {S rou f : Addr}
    {adm fadm : Option Addr} {s : Router.State} {fs : Factory.State} {ops : List SwapOp} {ks : List PairSite}
    {first last : SwapOp} {dst : Option Str} (h : OnSweep c w S rou f adm fadm s fs ops ks first last dst)
    (hfit : ∀ k ∈ ks, Fits k w) {t : Addr} (ht : first.offer = .token t) {adv : Adv} {gas : Nat} (q : Querier)
    (hrun : runTx c adv gas w S (.exec rou (.executeSwapOperations ops none dst) []) = .ok w') :
    ∃ y, Router.simulateSwapOperations c.api (querier c q w) s (held w (.token t) rou) ops = .ok y ∧
      held w' (.token t) rou = 0 ∧
      (∀ i, held w' i (dst.getD S) = held w i (dst.getD S) + if i = last.ask then y else 0) ∧
      ∀ b, b ≠ rou → b ≠ dst.getD S → b ∉ ks.map PairSite.a → ∀ i, held w' i b = held w i b := by
  have hfr := hc.resolve_human h.names
  obtain ⟨h1, n, m, y, hr, h2⟩ := h.parts hc hw hrun
  obtain ⟨_, e2, e3, e4, _, e6⟩ := (h.start hc hw).effect (addr_facts hc hw h.router).1 h.names h.tail h2.quote hr
  have hh := h2
  rw [ht] at hh
  have hq := (legs_of (q := q) hc hw h.factory hfr h.pairs hfit (held_lt hw.tokensOk t rou)).mpr hh
  refine ⟨y, ?_, ?_, fun i => ?_, e6⟩
  · simp only [Router.simulateSwapOperations, bind_eq_ok, humanize_eq_ok, require_eq_ok]
    refine ⟨f, h.names, (), ?_, hq.simulated⟩
    have := h.head
    cases ops with
    | nil => cases this
    | cons => simp
  · rw [← ht]
    exact e4 first (List.mem_of_head? h.head)
  · split
    · rename_i hi
      rw [hi, e2]
    · rename_i hi
      rw [e3 i hi]; rfl

/-! ## The hypotheses can be met -/

namespace Demo

/-- From A to B. -/
def toB : List SwapOp := [⟨.token tA, .token tB⟩]

theorem lookFed {info : PairInfo} (h : Factory.queryPair chain.api (facState fed fac) (.token tA, .token tB) = .ok info) :
    info.contractAddr = pAB := by
  have e : val (Factory.queryPair chain.api (facState fed fac) (.token tA, .token tB)) = some info := by rw [h]; rfl
  have e2 : (val (Factory.queryPair chain.api (facState fed fac) (.token tA, .token tB))).map
    PairInfo.contractAddr = some pAB := by decide +kernel
  rw [e] at e2; exact Option.some.inj e2

/-- `user` has left 500 A in the router, `user2` sweeps them. -/
theorem toB_sweep : OnSweep chain fed user2 rou fac none none ⟨fac⟩ (facState fed fac) toB [siteAB]
    ⟨.token tA, .token tB⟩ ⟨.token tA, .token tB⟩ none :=
  ⟨isUser_user2, rouAt_eq (p := (none, ⟨fac⟩)) (by decide +kernel), rfl, facState_eq (a := fac) (by decide +kernel),
    .cons ⟨sound_fed, .inl ⟨rfl, rfl⟩, fun _ h => lookFed h⟩ .nil, by decide +kernel, by decide +kernel, rfl, rfl,
    by decide +kernel, by decide +kernel, by decide +kernel⟩

theorem toB_fits : ∀ k ∈ [siteAB], Fits k fed := by
  intro k hk
  simp only [List.mem_singleton] at hk
  subst hk
  exact fits_of rfl rfl _

theorem toB_quotes : ∃ y, HopByHop (querier chain (q 0 0 0) fed) fac toB [siteAB] 500 y := by
  have h1 : ((val ((querier chain (q 0 0 0) fed).pairInfo fac (.token tA, .token tB))).isSome) = true := by
    decide +kernel
  obtain ⟨i1, h1⟩ := Option.isSome_iff_exists.mp h1
  have hf : fed.contracts fac = some ⟨none, .factory (facState fed fac)⟩ := facState_eq (by decide +kernel)
  exact ⟨_, .hop (t := tA) (quote := ⟨950, 48, 2⟩) (by decide) rfl (val_eq h1) (lookFed (pairInfo_eq hf rfl (val_eq h1)))
    (val_eq (by decide +kernel)) ⟨by decide +kernel, by decide +kernel, trivial⟩ (.done _)⟩

/-- `user2`, who never had anything, goes away with 950 B. -/
example (adv : Adv) : ∃ gas w', runTx chain adv gas fed user2 (.exec rou (.executeSwapOperations toB none none) []) = .ok w' :=
  (C62_sweep_iff lawful fed_reachable toB_sweep toB_fits (t := tA) rfl adv (q 0 0 0)).mpr
    ⟨by simp, by
      rw [show held fed (.token tA) rou = 500 by decide +kernel]
      exact toB_quotes⟩

end Demo
end Halo
