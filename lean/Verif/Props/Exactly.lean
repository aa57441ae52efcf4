import Verif.Lemmas.TravelL
import Verif.Props.Again
/-! # The router, exactly (C124) -/

namespace Halo
open _root_.Halo.Spec

/-- The setting: a router, its factory, and a list of swaps of which each has a pair of the factory. Nothing else is assumed of the list:
the swaps need not fit together and may visit a pair again. -/
structure AnyRoute (c : Chain) (w : World) (rou f : Addr) (adm fadm : Option Addr) (s : Router.State) (fs : Factory.State)
    (ops : List SwapOp) (ks : List PairSite) (last : SwapOp) : Prop where
  router : w.contracts rou = some ⟨adm, .router s⟩
  names : c.api.human s.haloFactory = some f
  factory : w.contracts f = some ⟨fadm, .factory fs⟩
  pairs : List.Forall₂ (fun op k => k.Sound c w ∧ k.Dir op.offer op.ask ∧
      ∀ info, Factory.queryPair c.api fs (op.offer, op.ask) = .ok info → info.contractAddr = k.a) ops ks
  tail : ops.getLast? = some last

/-- The router turns holdings `b` into `b'` on behalf of `S`: the receiver is a valid address; what is bought on the way is sold again; the
offers are tokens; the factory knows the pairs; the router goes from pair to pair, each time with all it has; and if a minimum is asked for,
the receiver has at least that much more of the last asset than before. -/
structure Served (c : Chain) (q : Querier) (f rou S : Addr) (ops : List SwapOp) (ks : List PairSite) (last : SwapOp) (mn : Option Nat)
    (dst : Option Str) (b b' : Purses Addr AssetInfo) : Prop where
  valid : ∀ d, dst = some d → c.api.validate d = .ok d
  resold : Resold ops last
  tokens : ∀ op ∈ ops, ∃ t, op.offer = .token t
  known : ∀ op ∈ ops, ∃ info, q.pairInfo f (op.offer, op.ask) = .ok info
  way : Travels rou (dst.getD S) b (stops ops ks) b'
  least : ∀ m, mn = some m → b (dst.getD S) last.ask + m ≤ b' (dst.getD S) last.ask ∧ b' (dst.getD S) last.ask < 2 ^ 128

/-- The setting in the middle of a transaction. -/
structure AnyRouteAt (c : Chain) (v : World) (rou f : Addr) (adm fadm : Option Addr) (s : Router.State) (fs : Factory.State)
    (ops : List SwapOp) (ks : List PairSite) (last : SwapOp) : Prop where
  router : v.contracts rou = some ⟨adm, .router s⟩
  names : c.api.human s.haloFactory = some f
  fres : c.api.resolve f = .ok f
  res : c.api.resolve rou = .ok rou
  factory : v.contracts f = some ⟨fadm, .factory fs⟩
  sites : List.Forall₂ (HopSite c v fs) ops ks
  tail : ops.getLast? = some last
  tokens : TokensOk v

section

variable {c : Chain} {rou f S : Addr} {adm fadm : Option Addr} {s : Router.State} {fs : Factory.State}
    {ops : List SwapOp} {ks : List PairSite} {last : SwapOp} {mn : Option Nat} {dst : Option Str}

theorem AnyRoute.at {w : World} (hc : c.Lawful) (hw : Reachable c w) (h : AnyRoute c w rou f adm fadm s fs ops ks last) :
    AnyRouteAt c w rou f adm fadm s fs ops ks last :=
  ⟨h.router, h.names, hc.resolve_human h.names, (addr_facts hc hw h.router).1, h.factory, hopSites hc hw h.pairs, h.tail, hw.tokensOk⟩

namespace AnyRouteAt

variable {v : World}

theorem keep {v' : World} (h : AnyRouteAt c v rou f adm fadm s fs ops ks last) (hk : TokKeep v v') (hv : TokensOk v') :
    AnyRouteAt c v' rou f adm fadm s fs ops ks last :=
  ⟨hk.contracts h.router (by intro _ h; cases h), h.names, h.fres, h.res, hk.contracts h.factory (by intro _ h; cases h),
    h.sites.imp fun _ _ hh => hh.keep hk, h.tail, hv⟩

theorem target (h : AnyRouteAt c v rou f adm fadm s fs ops ks last) :
    Honest v last.ask ∧ ∀ t, last.ask = .token t → c.api.resolve t = .ok t := by
  have hm : last ∈ ops := List.mem_of_getLast? h.tail
  obtain ⟨k, _, hk⟩ : ∃ k ∈ ks, HopSite c v fs last k := by
    have := h.sites
    clear h
    induction this with
    | nil => cases hm
    | cons h1 _ ih =>
      rcases List.mem_cons.mp hm with rfl | hm
      · exact ⟨_, .head _, h1⟩
      · obtain ⟨k, hk, hh⟩ := ih hm
        exact ⟨k, .tail _ hk, hh⟩
  exact ⟨hk.good.honest hk.dir.snd, fun t e => hk.ctx.resolve_of hk.dir.snd e⟩

theorem nonempty (h : AnyRouteAt c v rou f adm fadm s fs ops ks last) : ops ≠ [] := by
  rintro rfl
  have := h.tail
  cases this

/-- What a request that went through needed and did. -/
theorem inv (h : AnyRouteAt c v rou f adm fadm s fs ops ks last) {adv : Adv} {n n' : Nat} {v' : World} {caller : Addr} {m : ExecMsg}
    (hm : Router.Request S ops mn dst caller m) (hrun : run c adv n v [.msg caller (plain (.exec rou m []))] = .ok (n', v')) (q : Querier) :
    Served c (querier c q v) f rou S ops ks last mn dst (purses v) (purses v') := by
  obtain ⟨n1, u0, fs1, rfl, hs, hr⟩ := run_cons_inv hrun
  obtain ⟨r, hmv, hex, rfl⟩ := rou_exec h.res h.router (step_inv hs)
  rw [moveCoins_nil, eq_comm] at hmv
  subst hmv
  obtain ⟨hdst, last', hl', hop, hcase⟩ := Router.request_inv hm hex
  obtain rfl : last = last' := by have := h.tail; rw [hl'] at this; exact (Option.some.inj this).symm
  have hres := (C34_check_iff h.tail).mp hop
  have key : ∀ {n n' : Nat} {u : World}, run c adv n v ((Router.hopMsgs rou (dst.getD S) ops).map fun m => .msg rou (plain m)) = .ok (n', u) →
      (∀ op ∈ ops, ∃ t, op.offer = .token t) ∧ (∀ op ∈ ops, ∃ info, (querier c q v).pairInfo f (op.offer, op.ask) = .ok info) ∧
      Travels rou (dst.getD S) (purses v) (stops ops ks) (purses u) ∧ TokKeep v u := by
    intro n n' u hr
    obtain ⟨g1, g2, g3, g4⟩ := hops_all h.res h.names h.router h.factory h.sites h.tokens h.nonempty hr
    exact ⟨g1, fun op ho => (g2 op ho).imp fun _ hi => (pairInfo_iff h.factory h.fres).mpr hi, g3, g4⟩
  rcases hcase with ⟨rfl, rfl⟩ | ⟨mm, prev, rfl, hprev, rfl⟩
  · have hr1 : run c adv n1 v ((Router.hopMsgs rou (dst.getD S) ops).map fun m => .msg rou (plain m)) = .ok (n', v') := by
      simpa [frames, replyFrame, Function.comp_def] using hr
    obtain ⟨g1, g2, g3, _⟩ := key hr1
    exact ⟨hdst, hres, g1, g2, g3, by simp⟩
  · simp only [frames, replyFrame, List.append_nil, List.map_append, List.map_cons, List.map_nil, List.map_map] at hr
    obtain ⟨n2, u, hr1, hr2⟩ := run_append.mp hr
    obtain ⟨g1, g2, g3, g4⟩ := key hr1
    have hu : u.contracts rou = some ⟨adm, .router s⟩ := g4.contracts h.router (by intro _ h; cases h)
    obtain ⟨n3, u', fs2, rfl, hs2, hr3⟩ := run_cons_inv hr2
    obtain ⟨r2, hmv2, hx2, rfl⟩ := rou_exec h.res hu (step_inv hs2)
    rw [moveCoins_nil] at hmv2
    subst hmv2
    simp only [Router.execute, Router.assertMinimumReceive, bind_eq_ok, pure_eq_ok, require_eq_ok, Prod.mk.injEq] at hx2
    obtain ⟨rcv, hrcv, bal, hbal, d, hd, _, hge, _, rfl⟩ := hx2
    obtain ⟨rfl, _⟩ := validate_eq_ok.mp hrcv
    have hto := h.target.1
    have b1 := (queryPool_held hto hprev).1
    obtain ⟨b2, b3⟩ := queryPool_held (g4.honest hto) hbal
    simp only [frames, replyFrame, List.map_nil, List.append_nil, run_nil, Except.ok.injEq, Prod.mk.injEq] at hr3
    obtain ⟨_, rfl⟩ := hr3
    obtain ⟨hd1, hd2⟩ := Uint128.checkedSub_eq_ok.mp hd
    refine ⟨hdst, hres, g1, g2, g3, fun m e => ?_⟩
    cases e
    change held v last.ask _ + mm ≤ held u' last.ask _ ∧ held u' last.ask _ < B128
    rw [← b2]
    change _ = held v last.ask _ at b1
    omega

/-- A request that can be served goes through. -/
theorem go (h : AnyRouteAt c v rou f adm fadm s fs ops ks last) (adv : Adv) (n : Nat) {caller : Addr} {m : ExecMsg}
    (hS : c.api.validate S = .ok S) (hm : Router.Request S ops mn dst caller m)
    (hx : ∀ x k, m = .receive S x k → x < B128) {q : Querier} {b' : Purses Addr AssetInfo}
    (hs : Served c (querier c q v) f rou S ops ks last mn dst (purses v) b') :
    ∃ n' v', run c adv (n + 4 * ops.length + 2) v [.msg caller (plain (.exec rou m []))] = .ok (n', v') := by
  have hrcv : c.api.validate (dst.getD S) = .ok (dst.getD S) := by
    cases dst with
    | none => exact hS
    | some d => exact hs.valid d rfl
  obtain ⟨htg, htg2⟩ := h.target
  obtain ⟨n1, u, hn1, hrun⟩ := hops_go adv h.res h.names hrcv (n + 1) h.router h.factory h.sites h.tokens hs.tokens
    (fun op ho => (hs.known op ho).imp fun _ hi => (pairInfo_iff h.factory h.fres).mp hi) hs.way
  rw [show n + 1 + 4 * ops.length = n + 4 * ops.length + 1 by omega] at hrun
  obtain ⟨_, _, g3, g4⟩ := hops_all h.res h.names h.router h.factory h.sites h.tokens h.nonempty hrun
  obtain rfl := g3.unique hs.way
  have hq1 : ∀ q, mn ≠ none → last.ask.queryPool (querier c q v) c.api (dst.getD S) = .ok (held v last.ask (dst.getD S)) := by
    intro q hne
    obtain ⟨mm, hmm⟩ := Option.ne_none_iff_exists'.mp hne
    obtain ⟨l1, l2⟩ := hs.least mm hmm
    refine queryPool_live htg htg2 (PairSite.resolve_of_validate hrcv) ?_
    change held v last.ask _ + mm ≤ held u last.ask _ at l1
    change held u last.ask _ < B128 at l2
    omega
  have hin : optLt B128 mn = true := by
    cases hmn : mn with
    | none => rfl
    | some mm =>
      obtain ⟨l1, l2⟩ := hs.least mm hmn
      change held u last.ask _ < B128 at l2
      change held v last.ask _ + mm ≤ held u last.ask _ at l1
      simp only [optLt, decide_eq_true_eq]; omega
  have hacc : (mn = none ∨ ∃ b, last.ask.queryPool (querier c (adv.query (n + 4 * ops.length + 1)) v) c.api (dst.getD S) = .ok b) := by
    by_cases hne : mn = none
    · exact .inl hne
    · exact .inr ⟨_, hq1 _ hne⟩
  obtain ⟨⟨s1, r⟩, hex⟩ : ∃ res, Router.execute c.api (querier c (adv.query (n + 4 * ops.length + 1)) v) rou s caller m = .ok res := by
    cases hm with
    | direct => exact C34_accepted_iff.mpr ⟨hs.valid, last, h.tail, hs.resold, hacc⟩
    | hook t x => exact C34_hook_accepted_iff.mpr ⟨hS, hs.valid, last, h.tail, hs.resold, hacc⟩
  have hs2 := step_router_of (adv := adv) (n := n + 4 * ops.length + 1) (sender := caller) h.res h.router (by
    cases hm with
    | direct => simpa only [ExecMsg.inRange] using hin
    | hook t x =>
      simp only [ExecMsg.inRange, HookMsg.inRange, Bool.and_eq_true, decide_eq_true_eq]
      exact ⟨hx x _ rfl, hin⟩) hex
  obtain ⟨_, last', hl', _, ⟨rfl, rfl⟩ | ⟨mm, prev, rfl, hprev, rfl⟩⟩ := Router.request_inv hm hex
  · refine ⟨n1, u, run_cons_of hs2 ?_⟩
    simpa [frames, replyFrame, Function.comp_def] using hrun
  · have hlast := h.tail
    rw [hl'] at hlast
    cases hlast
    have hp := hq1 (adv.query (n + 4 * ops.length + 1)) (by simp)
    change last.ask.queryPool _ _ _ = _ at hprev
    rw [hp] at hprev
    cases hprev
    obtain ⟨n2, rfl⟩ : ∃ n2, n1 = n2 + 1 := ⟨n1 - 1, by omega⟩
    obtain ⟨l1, l2⟩ := hs.least mm rfl
    change held u last.ask _ < B128 at l2
    change held v last.ask _ + mm ≤ held u last.ask _ at l1
    have hq2 := queryPool_live (c := c) (q := adv.query n2) (g4.honest htg) htg2 (PairSite.resolve_of_validate hrcv) l2
    have hs3 := step_router_of (adv := adv) (n := n2) (sender := rou) h.res
      (g4.contracts h.router (by intro _ h; cases h)) (s' := s) (r := {})
      (m := .assertMinimumReceive last.ask (held v last.ask (dst.getD S)) mm (dst.getD S))
      (by
        simp only [ExecMsg.inRange, Bool.and_eq_true, decide_eq_true_eq]
        omega)
      (by
        simp only [Router.execute, Router.assertMinimumReceive, bind_eq_ok, pure_eq_ok, require_eq_ok,
          Uint128.checkedSub_eq_ok]
        exact ⟨_, hrcv, _, hq2, _, ⟨by omega, rfl⟩, (), by omega, trivial⟩)
    refine ⟨n2, u, run_cons_of hs2 ?_⟩
    simp only [List.append_nil, frames, List.map_append, List.map_cons, List.map_nil, List.map_map, Function.comp_def]
    exact run_append.mpr ⟨n2 + 1, u, hrun, run_cons_of hs3 run_nil⟩

end AnyRouteAt

/-- Paying a token into the router does not change what the factory knows. -/
theorem Served.move {q : Querier} {w v : World} {b b' : Purses Addr AssetInfo} (hk : TokKeep w v) (hf : w.contracts f = some ⟨fadm, .factory fs⟩)
    (hfr : c.api.resolve f = .ok f) :
    Served c (querier c q v) f rou S ops ks last mn dst b b' ↔ Served c (querier c q w) f rou S ops ks last mn dst b b' := by
  have e : ∀ op : SwapOp, (∃ info, (querier c q v).pairInfo f (op.offer, op.ask) = .ok info) ↔
      ∃ info, (querier c q w).pairInfo f (op.offer, op.ask) = .ok info := fun op =>
    exists_congr fun _ => (pairInfo_iff (hk.contracts hf (by intro _ h; cases h)) hfr).trans (pairInfo_iff hf hfr).symm
  constructor <;> rintro ⟨h1, h2, h3, h4, h5, h6⟩
  · exact ⟨h1, h2, h3, fun op ho => (e op).mp (h4 op ho), h5, h6⟩
  · exact ⟨h1, h2, h3, fun op ho => (e op).mpr (h4 op ho), h5, h6⟩

/-- **C124.** When a route request goes through that is sent to the router without tokens, whatever the route, whatever the router holds,
whoever is to receive the proceeds and whatever other contracts do: exactly when it can be served from what everybody holds. -/
theorem C124_direct_iff (hc : c.Lawful) {w : World} (hw : Reachable c w) (h : AnyRoute c w rou f adm fadm s fs ops ks last)
    (hS : c.api.validate S = .ok S) (mn : Option Nat) (dst : Option Str) (adv : Adv) (q : Querier) :
    (∃ gas w', runTx c adv gas w S (.exec rou (.executeSwapOperations ops mn dst) []) = .ok w') ↔
      ∃ b', Served c (querier c q w) f rou S ops ks last mn dst (purses w) b' := by
  constructor
  · rintro ⟨gas, w', hr⟩
    obtain ⟨n, hr⟩ := runTx_inv hr
    exact ⟨_, (h.at hc hw).inv .direct hr q⟩
  · rintro ⟨b', hs⟩
    obtain ⟨n', w', hr⟩ := (h.at hc hw).go adv 0 hS .direct (fun _ _ e => nomatch e) hs
    exact ⟨_, runTx_of ⟨_, _, hr⟩⟩

/-- **C124.** What it does: afterwards everybody holds what the specification says. -/
theorem C124_direct_effect (hc : c.Lawful) {w w' : World} (hw : Reachable c w) (h : AnyRoute c w rou f adm fadm s fs ops ks last)
    {mn : Option Nat} {dst : Option Str} {adv : Adv} {gas : Nat}
    (hr : runTx c adv gas w S (.exec rou (.executeSwapOperations ops mn dst) []) = .ok w') {b' : Purses Addr AssetInfo}
    (ht : Travels rou (dst.getD S) (purses w) (stops ops ks) b') (i : AssetInfo) (a : Addr) : held w' i a = b' a i := by
  obtain ⟨n, hr⟩ := runTx_inv hr
  have e := ((h.at hc hw).inv .direct hr (adv.query 0)).way.unique ht
  rw [← e]; rfl

/-- **C124.** When a route request goes through that comes with `x` of a token `t`, any token: exactly when the sender has them and the
request can be served from what everybody holds once the router has them. -/
theorem C124_iff (hc : c.Lawful) {w : World} (hw : Reachable c w) (h : AnyRoute c w rou f adm fadm s fs ops ks last) {t : Addr}
    {tadm : Option Addr} {st : TokenState} (ht : w.contracts t = some ⟨tadm, .token st⟩)
    (hS : c.api.validate S = .ok S) (mn : Option Nat) (dst : Option Str) (x : Nat) (adv : Adv) (q : Querier) :
    (∃ gas w', runTx c adv gas w S (.exec t (.send rou x (.executeSwapOperations ops mn dst)) []) = .ok w') ↔
      0 < x ∧ x ≤ held w (.token t) S ∧
      ∃ b', Served c (querier c q w) f rou S ops ks last mn dst ((purses w).pay (.token t) S rou x) b' := by
  have htr := (addr_facts hc hw ht).1
  have hd := h.at hc hw
  constructor
  · rintro ⟨gas, w', hr⟩
    obtain ⟨n, hr⟩ := runTx_inv hr
    obtain ⟨k, v1, rfl, hx0, hx, hv1, hr⟩ := send_all (fun _ e => by cases e; exact ⟨_, _, ht⟩) htr hw.tokensOk hr
    have hs := (Served.move hx.keep h.factory hd.fres).mp ((hd.keep hx.keep hv1).inv (.hook t x) hr q)
    rw [hx.purses] at hs
    exact ⟨Nat.pos_of_ne_zero hx0, hx.le, _, hs⟩
  · rintro ⟨hx0, hb, b', hs⟩
    have hinv := hw.tokensOk _ _ _ ht
    rw [held_token ht] at hb
    have hle := hinv.le_supply S
    have hfits := hinv.fits
    have hxlt : x < B128 := by omega
    have hxf := (xfer_token (v := w) (dst := rou) ht (Nat.ne_of_gt hx0) hb)
    have hs1 := fun n => step_token_of (adv := adv) (n := n) (sender := S) htr ht
      (by simp only [ExecMsg.inRange, decide_eq_true_eq]; exact hxlt)
      (Token.execute_send (blk := w.block) (hk := .executeSwapOperations ops mn dst) hinv (Nat.ne_of_gt hx0)
        (validate_of_resolve hd.res) hb)
    generalize hv1 : w.setState t tadm (.token { st with balances := Token.moveBal st.balances S rou x }) = v1 at hxf hs1
    have hv1' : TokensOk v1 := hw.tokensOk.step (step_inv (hs1 0))
    rw [← hxf.purses] at hs
    obtain ⟨n', w', hr⟩ := (hd.keep hxf.keep hv1').go adv 0 hS (.hook t x) (fun _ _ e => by cases e; exact hxlt)
      ((Served.move hxf.keep h.factory hd.fres).mpr hs)
    exact ⟨_, runTx_of ⟨_, _, run_cons_of (hs1 _) hr⟩⟩

/-- **C124.** What it does: afterwards everybody holds what the specification says. -/
theorem C124_effect (hc : c.Lawful) {w w' : World} (hw : Reachable c w) (h : AnyRoute c w rou f adm fadm s fs ops ks last) {t : Addr}
    {tadm : Option Addr} {st : TokenState} (ht : w.contracts t = some ⟨tadm, .token st⟩) {mn : Option Nat} {dst : Option Str} {x : Nat}
    {adv : Adv} {gas : Nat} (hr : runTx c adv gas w S (.exec t (.send rou x (.executeSwapOperations ops mn dst)) []) = .ok w')
    {b' : Purses Addr AssetInfo} (hb : Travels rou (dst.getD S) ((purses w).pay (.token t) S rou x) (stops ops ks) b')
    (i : AssetInfo) (a : Addr) : held w' i a = b' a i := by
  have htr := (addr_facts hc hw ht).1
  have hd := h.at hc hw
  obtain ⟨n, hr⟩ := runTx_inv hr
  obtain ⟨k, v1, rfl, hx0, hx, hv1, hr⟩ := send_all (fun _ e => by cases e; exact ⟨_, _, ht⟩) htr hw.tokensOk hr
  have hs := ((hd.keep hx.keep hv1).inv (.hook t x) hr (adv.query 0)).way
  rw [hx.purses] at hs
  rw [← hs.unique hb]; rfl

/-- **C124.** Nothing but the last asset stays with the router: after any route request, the router has none left of any other asset that was
bought or sold on the way. (Provided the assets can be told apart by their printed forms, as the router does.) -/
theorem C124_nothing_left (hc : c.Lawful) {w w' : World} (hw : Reachable c w) (h : AnyRoute c w rou f adm fadm s fs ops ks last)
    {mn : Option Nat} {dst : Option Str} {adv : Adv} {gas : Nat} {m : CosmosMsg}
    (hm : m = .exec rou (.executeSwapOperations ops mn dst) [] ∨
      ∃ t tadm st x, w.contracts t = some ⟨tadm, .token st⟩ ∧ m = .exec t (.send rou x (.executeSwapOperations ops mn dst)) [])
    (hr : runTx c adv gas w S m = .ok w')
    (hinj : ∀ a ∈ ops, ∀ b ∈ ops, (a.ask.toStr = b.offer.toStr → a.ask = b.offer) ∧ (a.ask.toStr = b.ask.toStr → a.ask = b.ask))
    {i : AssetInfo} (hi : ∃ op ∈ ops, i = op.offer ∨ i = op.ask) (hl : i ≠ last.ask) : held w' i rou = 0 := by
  have hd := h.at hc hw
  obtain ⟨b, q, hs⟩ : ∃ b q, Served c (querier c q w) f rou S ops ks last mn dst b (purses w') := by
    obtain ⟨n, hr⟩ := runTx_inv hr
    rcases hm with rfl | ⟨t, tadm, st, x, ht, rfl⟩
    · exact ⟨_, _, hd.inv .direct hr (adv.query 0)⟩
    · obtain ⟨k, v1, rfl, hx0, hx, hv1, hr⟩ := send_all (fun _ e => by cases e; exact ⟨_, _, ht⟩) (addr_facts hc hw ht).1 hw.tokensOk hr
      exact ⟨_, _, (Served.move hx.keep h.factory hd.fres).mp ((hd.keep hx.keep hv1).inv (.hook t x) hr (adv.query 0))⟩
  have hre := (C34_assets h.tail hinj).mp hs.resold
  have hlen : ops.length = ks.length := h.pairs.length_eq
  have sold : ∀ pre h post, stops ops ks = pre ++ h :: post → h.ask = i → ∃ h' ∈ post, h'.offer = i := by
    intro pre h' post e ha
    have hpre : stops ops ks = stops (ops.take pre.length) (ks.take pre.length) ++ stops (ops.drop pre.length) (ks.drop pre.length) := by
      unfold stops
      rw [← List.take_zipWith, ← List.drop_zipWith, List.take_append_drop]
    have hpl : (stops (ops.take pre.length) (ks.take pre.length)).length = pre.length := by
      have := congrArg List.length e
      simp only [stops, List.length_zipWith, List.length_append, List.length_cons, List.length_take] at this ⊢
      omega
    rw [hpre] at e
    obtain ⟨_, e2⟩ := List.append_inj e hpl
    cases ho : ops.drop pre.length with
    | nil => rw [ho] at e2; simp [stops] at e2
    | cons op post' =>
      cases hk : ks.drop pre.length with
      | nil => rw [hk] at e2; simp [stops] at e2
      | cons k ks' =>
        rw [ho, hk] at e2
        simp only [stops, List.zipWith_cons_cons, List.cons.injEq] at e2
        obtain ⟨rfl, rfl⟩ := e2
        change op.ask = i at ha
        obtain ⟨op', hm', e'⟩ := hre (ops.take pre.length) op post' (by rw [← ho, List.take_append_drop]) (ha ▸ hl)
        have hl' : post'.length = ks'.length := by
          have h1 := congrArg List.length ho
          have h2 := congrArg List.length hk
          simp only [List.length_drop, List.length_cons] at h1 h2
          omega
        obtain ⟨j, hj, rfl⟩ := List.getElem_of_mem hm'
        refine ⟨stop post'[j] ks'[j], ?_, by rw [← ha]; exact e'⟩
        rw [← List.getElem_zipWith (f := stop) (h := by simp only [List.length_zipWith]; omega)]
        exact List.getElem_mem _
  refine hs.way.none_left (fun h' hm' => ?_) sold ?_
  · have := hd.sites
    clear * - this hm' hd hw hc
    have hro := hd.router
    clear hd
    induction this with
    | nil => cases hm'
    | cons h1 _ ih =>
      rcases List.mem_cons.mp hm' with rfl | hm'
      · refine ⟨fun e => ?_, h1.dir.ne h1.ctx⟩
        obtain ⟨ad, hp⟩ := h1.good.live
        change PairSite.a _ = rou at e
        rw [e, hro] at hp
        cases hp
      · exact ih hm'
  · right
    have up : ∀ {os : List SwapOp} {ks : List PairSite}, os.length = ks.length → ∀ op ∈ os, ∃ h ∈ stops os ks, h.offer = op.offer := by
      intro os ks hl op hm
      obtain ⟨j, hj, rfl⟩ := List.getElem_of_mem hm
      refine ⟨stop os[j] ks[j], ?_, rfl⟩
      rw [← List.getElem_zipWith (f := stop) (h := by simp only [List.length_zipWith]; omega)]
      exact List.getElem_mem _
    obtain ⟨op, ho, hi⟩ := hi
    rcases hi with rfl | rfl
    · exact up hlen op ho
    · obtain ⟨pre, post, e⟩ := List.append_of_mem ho
      obtain ⟨op', hm', e'⟩ := hre pre op post e hl
      rw [← e']
      exact up hlen op' (by rw [e]; simp [hm'])

end

/-! ## Examples -/

namespace Demo

/-- Somebody has left 1000 B with the router. -/
def lentBMsg : CosmosMsg := .exec tB (.transfer rou 1000) []
def lentB : World := worldOf (runs [lentBMsg] triangle)
theorem lentB_run : runs [lentBMsg] triangle = .ok lentB := worldOf_eq (by decide +kernel)
theorem lentB_reachable : Reachable chain lentB := triangle_reachable.later (later_runs lentB_run)

theorem lentB_sound : ∀ k ∈ [siteAB, siteBC, siteAC], k.Sound chain lentB := by
  intro k hk
  simp only [List.mem_cons, List.not_mem_nil, or_false] at hk
  rcases hk with rfl | rfl | rfl
  · exact sound_of (k := siteAB) (x := tA) (y := tB) (by decide +kernel) ⟨rfl, rfl, rfl⟩ rfl rfl (by decide +kernel)
      (by decide +kernel)
  · exact sound_of (k := siteBC) (x := tB) (y := tC) (by decide +kernel) ⟨rfl, rfl, rfl⟩ rfl rfl (by decide +kernel)
      (by decide +kernel)
  · exact sound_of (k := siteAC) (x := tA) (y := tC) (by decide +kernel) ⟨rfl, rfl, rfl⟩ rfl rfl (by decide +kernel)
      (by decide +kernel)

theorem look_lentB {i j : AssetInfo} {p : Addr} {info : PairInfo}
    (h : Factory.queryPair chain.api (facState lentB fac) (i, j) = .ok info)
    (e : (val (Factory.queryPair chain.api (facState lentB fac) (i, j))).map PairInfo.contractAddr = some p) :
    info.contractAddr = p := by
  rw [h] at e; exact Option.some.inj e

/-- A and B, both for C: two swaps that do not follow one another. -/
def fork : List SwapOp := [⟨.token tA, .token tC⟩, ⟨.token tB, .token tC⟩]

theorem fork_desk : AnyRoute chain lentB rou fac none none ⟨fac⟩ (facState lentB fac) fork [siteAC, siteBC] ⟨.token tB, .token tC⟩ :=
  ⟨rouAt_eq (p := (none, ⟨fac⟩)) (by decide +kernel), rfl, facState_eq (a := fac) (by decide +kernel),
    .cons ⟨lentB_sound _ (by simp), .inl ⟨rfl, rfl⟩, fun _ h => look_lentB h (by decide +kernel)⟩
      (.cons ⟨lentB_sound _ (by simp), .inl ⟨rfl, rfl⟩, fun _ h => look_lentB h (by decide +kernel)⟩ .nil), rfl⟩

def forkMsg (m : Nat) : CosmosMsg := .exec tA (.send rou 1000 (.executeSwapOperations fork (some m) (some user2))) []
def forked : World := worldOf (runTx chain idle 20 lentB user (forkMsg 900))
theorem forked_run : runTx chain idle 20 lentB user (forkMsg 900) = .ok forked := worldOf_eq (by decide +kernel)
theorem lentB_tA : ∃ tadm st, lentB.contracts tA = some ⟨tadm, .token st⟩ :=
  ((lentB_sound siteAB (by simp)).good lawful lentB_reachable).asset0 tA rfl

/-- The router has no A and no B left. -/
example : held forked (.token tA) rou = 0 ∧ held forked (.token tB) rou = 0 := by
  obtain ⟨_, _, ht⟩ := lentB_tA
  have key := fun i => C124_nothing_left lawful lentB_reachable fork_desk (.inr ⟨tA, _, _, 1000, ht, rfl⟩) forked_run (i := i) (by decide +kernel)
  exact ⟨key _ ⟨_, .head _, .inl rfl⟩ (by decide +kernel), key _ ⟨_, .tail _ (.head _), .inl rfl⟩ (by decide +kernel)⟩

/-- The route goes through exactly when the specification says so, and does what it says. -/
example (m : Nat) (adv : Adv) : (∃ gas w', runTx chain adv gas lentB user (forkMsg m) = .ok w') ↔ m ≤ 1813 := by
  obtain ⟨_, _, ht⟩ := lentB_tA
  have h := C124_iff lawful lentB_reachable fork_desk ht isUser_user.2 (some m) (some user2) 1000 adv (q 0 0 0)
  have h0 := C124_iff lawful lentB_reachable fork_desk ht isUser_user.2 (some 900) (some user2) 1000 idle (q 0 0 0)
  obtain ⟨hx, hb, b', hs⟩ := h0.mp ⟨_, _, forked_run⟩
  have e := C124_effect lawful lentB_reachable fork_desk ht forked_run hs.way (.token tC) user2
  rw [show held forked (.token tC) user2 = 1813 by decide +kernel] at e
  have e0 : (purses lentB).pay (.token tA) user rou 1000 user2 (.token tC) = 0 := by decide +kernel
  refine h.trans ⟨?_, fun hm => ⟨hx, hb, b', hs.valid, hs.resold, hs.tokens, hs.known, hs.way, fun m' em => ?_⟩⟩
  · rintro ⟨_, _, b2, h2⟩
    obtain rfl := h2.way.unique hs.way
    have := (h2.least m rfl).1
    change (purses lentB).pay (.token tA) user rou 1000 user2 (.token tC) + m ≤ b2 user2 (.token tC) at this
    omega
  · cases em
    change (purses lentB).pay (.token tA) user rou 1000 user2 (.token tC) + m ≤ b' user2 (.token tC) ∧ b' user2 (.token tC) < 2 ^ 128
    rw [← e, e0]
    exact ⟨by omega, by norm_num⟩

theorem sweep_desk : AnyRoute chain lentB rou fac none none ⟨fac⟩ (facState lentB fac) [⟨.token tB, .token tA⟩] [siteAB] ⟨.token tB, .token tA⟩ :=
  ⟨fork_desk.router, fork_desk.names, fork_desk.factory,
    .cons ⟨lentB_sound _ (by simp), .inr ⟨rfl, rfl⟩, fun _ h => look_lentB h (by decide +kernel)⟩ .nil, rfl⟩
def sweptMsg : CosmosMsg := .exec rou (.executeSwapOperations [⟨.token tB, .token tA⟩] none (some rou)) []
def sweptB : World := worldOf (runTx chain idle 20 lentB user2 sweptMsg)
theorem sweptB_run : runTx chain idle 20 lentB user2 sweptMsg = .ok sweptB := worldOf_eq (by decide +kernel)

/-- Sent without tokens, and to be paid to the router itself. -/
example : ∃ b', Served chain (querier chain (q 0 0 0) lentB) fac rou user2 [⟨.token tB, .token tA⟩] [siteAB] ⟨.token tB, .token tA⟩ none (some rou)
    (purses lentB) b' ∧ ∀ i a, held sweptB i a = b' a i := by
  obtain ⟨b', hb⟩ := (C124_direct_iff lawful lentB_reachable sweep_desk (by decide +kernel) none (some rou) idle (q 0 0 0)).mp ⟨_, _, sweptB_run⟩
  exact ⟨b', hb, C124_direct_effect lawful lentB_reachable sweep_desk sweptB_run hb.way⟩

def sweptC : World := worldOf (runTx chain idle 20 forked user2 (.exec rou (.executeSwapOperations [⟨.token tC, .token tA⟩] none none) []))
theorem sweptC_run : runTx chain idle 20 forked user2 (.exec rou (.executeSwapOperations [⟨.token tC, .token tA⟩] none none) []) = .ok sweptC :=
  worldOf_eq (by decide +kernel)

end Demo

open Demo in
/-- **C124.** The last asset, however, can stay behind: the router accepts two swaps that both buy C although only the second pays the
receiver. On a deployed exchange with 1000 B left in the router, a user who sells 1000 A and the B for C is paid 1813 C for the B; the 3324 C
for their A stay with the router, from which the next to ask takes 995 A. -/
theorem C124_left_behind : Reachable chain lentB ∧
    AnyRoute chain lentB rou fac none none ⟨fac⟩ (facState lentB fac) fork [siteAC, siteBC] ⟨.token tB, .token tC⟩ ∧
    ∃ w' w'' gas, runTx chain idle gas lentB user (.exec tA (.send rou 1000 (.executeSwapOperations fork (some 900) (some user2))) []) = .ok w' ∧
      held w' (.token tC) user2 = held lentB (.token tC) user2 + 1813 ∧ held w' (.token tC) rou = held lentB (.token tC) rou + 3324 ∧
      runTx chain idle gas w' user2 (.exec rou (.executeSwapOperations [⟨.token tC, .token tA⟩] none none) []) = .ok w'' ∧
      held w'' (.token tC) rou = 0 ∧ held w'' (.token tA) user2 = held w' (.token tA) user2 + 995 :=
  ⟨lentB_reachable, fork_desk, forked, sweptC, 20, forked_run, by decide +kernel, by decide +kernel, sweptC_run, by decide +kernel,
    by decide +kernel⟩

end Halo
