import Verif.Lemmas.WalkL
/-! # Routes that visit a pair again (C123) -/

namespace Halo
open _root_.Halo.Spec

/-- The setting of C123: user `S` sends tokens `t` to the router `rou` for a route over pairs with well-behaved assets, each hop
offering what the previous one bought; the pairs are those the router's factory names; the router holds nothing of the assets to be
sold on the route; the receiver is neither the router nor one of the pairs. The pairs need not be different (as they must in
`OnRoute`): a route may go there and back, or twice round a triangle. -/
structure OnWalk (c : Chain) (w : World) (S rou f t : Addr) (adm fadm : Option Addr) (s : Router.State)
    (fs : Factory.State) (ops : List SwapOp) (ks : List PairSite) (first last : SwapOp) (dst : Option Str) : Prop where
  user : c.IsUser S
  router : w.contracts rou = some ⟨adm, .router s⟩
  names : c.api.human s.haloFactory = some f
  factory : w.contracts f = some ⟨fadm, .factory fs⟩
  pairs : List.Forall₂ (fun op k => k.Sound c w ∧ k.Dir op.offer op.ask ∧
      ∀ info, Factory.queryPair c.api fs (op.offer, op.ask) = .ok info → info.contractAddr = k.a) ops ks
  con : ops.IsChain fun a b => a.ask = b.offer
  head : ops.head? = some first
  tail : ops.getLast? = some last
  offer : first.offer = .token t
  empty : ∀ op ∈ ops, held w op.offer rou = 0
  rcv_rou : dst.getD S ≠ rou
  rcv_pairs : ∀ k ∈ ks, dst.getD S ≠ k.a

namespace OnWalk

variable {c : Chain} {w : World} {S rou f t : Addr} {adm fadm : Option Addr} {s : Router.State}
    {fs : Factory.State} {ops : List SwapOp} {ks : List PairSite} {first last : SwapOp} {dst : Option Str}

theorem ne_pairs (hc : c.Lawful) (hw : Reachable c w) (h : OnWalk c w S rou f t adm fadm s fs ops ks first last dst) :
    ∀ k ∈ ks, S ≠ k.a := by
  intro k hk
  obtain ⟨op, _, hsk⟩ := forall₂_mem_right h.pairs hk
  exact (addr_facts hc hw hsk.1.pair).2 S h.user

theorem pairs_ne (h : OnWalk c w S rou f t adm fadm s fs ops ks first last dst) : ∀ k ∈ ks, k.a ≠ rou := by
  intro k hk e
  obtain ⟨op, _, hsk⟩ := forall₂_mem_right h.pairs hk
  obtain ⟨ad, hp⟩ : ∃ ad, w.contracts k.a = some ⟨ad, .pair k.s⟩ := ⟨_, hsk.1.pair⟩
  rw [e, h.router] at hp
  cases hp

theorem start (hc : c.Lawful) (hw : Reachable c w) (h : OnWalk c w S rou f t adm fadm s fs ops ks first last dst)
    {v : World} {x : Nat} (hx : Xfer (.token t) S rou x w v) : WalkSt c rou f (dst.getD S) adm fadm s fs v ops ks x := by
  have hSr : S ≠ rou := (addr_facts hc hw h.router).2 S h.user
  refine ⟨hx.keep.contracts h.router (by intro _ h; cases h), hx.keep.contracts h.factory (by intro _ h; cases h), ?_,
    h.con, h.rcv_rou, ?_, ?_, ?_⟩
  · exact (hopSites hc hw h.pairs).imp fun _ _ hh => hh.keep hx.keep
  · intro hm
    obtain ⟨k, hk, e⟩ := List.mem_map.mp hm
    exact h.rcv_pairs k hk e.symm
  · intro op ho
    have hf := h.head
    rw [ho] at hf
    cases hf
    have := (hx.bal hSr).2
    rw [← h.offer, h.empty _ (List.mem_of_head? h.head)] at this
    omega
  · intro op0 ho op hop hne
    have hf := h.head
    rw [ho] at hf
    cases hf
    rw [hx.other _ (h.offer ▸ hne)]
    exact h.empty op hop

theorem token (hc : c.Lawful) (hw : Reachable c w) (h : OnWalk c w S rou f t adm fadm s fs ops ks first last dst) :
    Honest w (.token t) ∧ c.api.resolve t = .ok t := by
  obtain ⟨hp, hfi⟩ := And.intro (hopSites hc hw h.pairs) h.head
  cases hp with
  | nil => cases hfi
  | cons h1 _ =>
    simp only [List.head?_cons, Option.some.injEq] at hfi
    subst hfi
    exact ⟨h.offer ▸ h1.good.honest h1.dir.fst, h1.ctx.resolve_of h1.dir.fst h.offer⟩

theorem target (hc : c.Lawful) (hw : Reachable c w) (h : OnWalk c w S rou f t adm fadm s fs ops ks first last dst) :
    Honest w last.ask ∧ ∀ t, last.ask = .token t → c.api.resolve t = .ok t := by
  have hm : last ∈ ops := List.mem_of_getLast? h.tail
  obtain ⟨k, _, hk⟩ : ∃ k ∈ ks, HopSite c w fs last k := by
    have := hopSites hc hw h.pairs
    clear h
    induction this with
    | nil => cases hm
    | cons h1 _ ih =>
      rcases List.mem_cons.mp hm with rfl | hm
      · exact ⟨_, .head _, h1⟩
      · obtain ⟨k, hk, hh⟩ := ih hm
        exact ⟨k, .tail _ hk, hh⟩
  exact ⟨hk.good.honest hk.dir.snd, fun t e => hk.ctx.resolve_of hk.dir.snd e⟩

/-- The hops after the offer has arrived, and what they did to everyone. -/
theorem after (hc : c.Lawful) (hw : Reachable c w) (h : OnWalk c w S rou f t adm fadm s fs ops ks first last dst)
    {v w' : World} {x n m : Nat} {adv : Adv} (hx : Xfer (.token t) S rou x w v)
    (hr : run c adv n v ((Router.hopMsgs rou (dst.getD S) ops).map fun m => .msg rou (plain m)) = .ok (m, w')) :
    ∃ y b', Walk c fs (fun q i => held w i q) ops ks x y b' ∧ TokKeep v w' ∧
      held w' last.ask (dst.getD S) = held v last.ask (dst.getD S) + y ∧
      (∀ i, held w' i (dst.getD S) =
        held w i (dst.getD S) - (if dst.getD S = S ∧ i = .token t then x else 0) + (if i = last.ask then y else 0)) ∧
      (S ≠ dst.getD S → ∀ i, held w' i S = held w i S - if i = .token t then x else 0) ∧
      (∀ i, held w' i rou = held w i rou) ∧
      ∀ b, b ≠ S → b ≠ rou → b ≠ dst.getD S → ∀ i, held w' i b = b' b i := by
  have hres := (addr_facts hc hw h.router).1
  have hSr : S ≠ rou := (addr_facts hc hw h.router).2 S h.user
  have hst := h.start hc hw hx
  obtain ⟨y, b', h1, h2, h3, h4, h5, h6, h7⟩ := hst.effect (P := fun q => q ≠ rou ∧ q ≠ dst.getD S)
    (b := fun q i => held v i q) hres h.names (fun e => e.1 rfl) (fun e => e.2 rfl)
    (fun k hk => ⟨h.pairs_ne k hk, Ne.symm (h.rcv_pairs k hk)⟩) (fun _ _ _ => rfl) h.tail hr
  obtain ⟨b'', g1, g2⟩ := h1.congr (b2 := fun q i => held w i q) fun k hk i =>
    (hx.outside (Ne.symm (h.ne_pairs hc hw k hk)) (h.pairs_ne k hk) i).symm
  refine ⟨y, b'', g1, h2, h3, fun i => ?_, fun hS i => ?_, fun i => ?_, fun b k1 k2 k3 i => ?_⟩
  · have e : held v i (dst.getD S) = held w i (dst.getD S) - (if dst.getD S = S ∧ i = .token t then x else 0) := by
      split
      · rename_i hh
        rw [hh.1, hh.2]
        exact (hx.bal hSr).1
      · rename_i hh
        by_cases hi : i = .token t
        · rw [hi, Nat.sub_zero]
          exact hx.outside (fun e => hh ⟨e, hi⟩) h.rcv_rou _
        · rw [hx.other i hi, Nat.sub_zero]
    rw [← e]
    split
    · rename_i hi
      rw [hi, h3]
    · rename_i hi
      rw [h4 i hi, Nat.add_zero]
  · have hSk : S ∉ ks.map PairSite.a := fun hm => by
      obtain ⟨k, hk, e⟩ := List.mem_map.mp hm
      exact h.ne_pairs hc hw k hk e.symm
    rw [← h7 S ⟨hSr, hS⟩, h1.off S hSk]
    change held v i S = _
    split
    · rename_i hi
      rw [hi]; exact (hx.bal hSr).1
    · rename_i hi
      rw [hx.other i hi, Nat.sub_zero]
  · by_cases hi : ∃ op ∈ ops, i = op.offer
    · obtain ⟨op, ho, rfl⟩ := hi
      rw [h5 op ho, h.empty op ho]
    · rw [h6 i fun op ho e => hi ⟨op, ho, e⟩, hx.other i]
      intro e
      exact hi ⟨first, List.mem_of_head? h.head, by rw [e, h.offer]⟩
  · rw [← h7 b ⟨k2, k3⟩]
    exact g2 b i (hx.outside k1 k2 i).symm

/-- The parts of a successful route transaction. -/
theorem parts (hc : c.Lawful) (hw : Reachable c w) (h : OnWalk c w S rou f t adm fadm s fs ops ks first last dst)
    {adv : Adv} {gas : Nat} {w' : World} {x : Nat} {mn : Option Nat}
    (hrun : runTx c adv gas w S (.exec t (.send rou x (.executeSwapOperations ops mn dst)) []) = .ok w') :
    (∀ d, dst = some d → c.api.validate d = .ok d) ∧ x ≤ held w (.token t) S ∧
    ∃ y b', Walk c fs (fun q i => held w i q) ops ks x y b' ∧ (∀ mm, mn = some mm → mm ≤ y) ∧
      (∀ i, held w' i (dst.getD S) =
        held w i (dst.getD S) - (if dst.getD S = S ∧ i = .token t then x else 0) + (if i = last.ask then y else 0)) ∧
      (S ≠ dst.getD S → ∀ i, held w' i S = held w i S - if i = .token t then x else 0) ∧
      (∀ i, held w' i rou = held w i rou) ∧
      ∀ b, b ≠ S → b ≠ rou → b ≠ dst.getD S → ∀ i, held w' i b = b' b i := by
  have hres := (addr_facts hc hw h.router).1
  obtain ⟨n, hr⟩ := runTx_inv hrun
  obtain ⟨hto, htr⟩ := h.token hc hw
  obtain ⟨k, v1, rfl, hx, hr⟩ := send_inv hto htr hr
  have hst := h.start hc hw hx
  obtain ⟨n1, v, fs1, rfl, hs, hrun⟩ := run_cons_inv hr
  obtain ⟨r, hmv, hex, rfl⟩ := rou_exec hres hst.router (step_inv hs)
  rw [moveCoins_nil, eq_comm] at hmv
  subst hmv
  obtain ⟨hdst, last', hl', _, ⟨rfl, rfl⟩ | ⟨mm, prev, rfl, hprev, rfl⟩⟩ := Router.request_inv (.hook t x) hex
  · have hr1 : run c adv n1 v1 ((Router.hopMsgs rou (dst.getD S) ops).map fun m => .msg rou (plain m)) = .ok (n, w') := by
      simpa [frames, replyFrame, Function.comp_def] using hrun
    obtain ⟨y, b', g1, _, _, g2⟩ := h.after hc hw hx hr1
    exact ⟨hdst, hx.le, y, b', g1, by simp, g2⟩
  · have hl := h.tail
    rw [hl'] at hl
    cases hl
    simp only [frames, replyFrame, List.append_nil, List.map_append, List.map_cons, List.map_nil, List.map_map] at hrun
    obtain ⟨n2, u, hr1, hr2⟩ := run_append.mp hrun
    obtain ⟨y, b', g1, e1, e2, g2⟩ := h.after hc hw hx hr1
    have hu : u.contracts rou = some ⟨adm, .router s⟩ := e1.contracts hst.router (by intro _ h; cases h)
    obtain ⟨n3, u', fs2, rfl, hs2, hr3⟩ := run_cons_inv hr2
    obtain ⟨r2, hmv2, hx2, rfl⟩ := rou_exec hres hu (step_inv hs2)
    rw [moveCoins_nil] at hmv2
    subst hmv2
    simp only [Router.execute, Router.assertMinimumReceive, bind_eq_ok, pure_eq_ok, require_eq_ok, Prod.mk.injEq] at hx2
    obtain ⟨rcv, hrcv, bal, hbal, d, hd, _, hge, _, rfl⟩ := hx2
    obtain ⟨rfl, _⟩ := validate_eq_ok.mp hrcv
    have hto' := (h.target hc hw).1
    have b1 := (queryPool_held (hx.keep.honest hto') hprev).1
    have b2 := (queryPool_held ((hx.keep.trans e1).honest hto') hbal).1
    simp only [frames, replyFrame, List.map_nil, List.append_nil, run_nil, Except.ok.injEq, Prod.mk.injEq] at hr3
    obtain ⟨_, rfl⟩ := hr3
    refine ⟨hdst, hx.le, y, b', g1, ?_, g2⟩
    intro mm' e
    cases e
    change prev = held v1 last.ask _ at b1
    change bal = held _ last.ask _ at b2
    have : d = y := by
      unfold Uint128.checkedSub at hd
      split at hd
      · cases hd; omega
      · cases hd
    omega

/-- A route with priced hops and an attainable minimum goes through. -/
theorem goes (hc : c.Lawful) (hw : Reachable c w) (h : OnWalk c w S rou f t adm fadm s fs ops ks first last dst)
    (hfit : ∀ k ∈ ks, Fits k w) {mn : Option Nat}
    (hbig : ∀ m d, mn = some m → last.ask = .native d → ∀ k ∈ ks, w.bal d (dst.getD S) + w.bal d k.a < 2 ^ 128)
    (adv : Adv) (n : Nat) {x y : Nat} {b' : Holds} (hx0 : 0 < x) (hb : x ≤ held w (.token t) S)
    (hdst : ∀ d, dst = some d → c.api.validate d = .ok d) (hl : Walk c fs (fun q i => held w i q) ops ks x y b')
    (hm : ∀ mm, mn = some mm → mm ≤ y) :
    ∃ w', runTx c adv (n + 4 * ops.length + 3) w S (.exec t (.send rou x (.executeSwapOperations ops mn dst)) []) = .ok w' := by
  have hres := (addr_facts hc hw h.router).1
  have hSr : S ≠ rou := (addr_facts hc hw h.router).2 S h.user
  obtain ⟨hto, htr⟩ := h.token hc hw
  obtain ⟨htg, htg2⟩ := h.target hc hw
  have hrcv : c.api.validate (dst.getD S) = .ok (dst.getD S) := by
    cases dst with
    | none => exact h.user.2
    | some d => exact hdst d rfl
  have hv := hw.tokensOk
  obtain ⟨tadm, st, hst⟩ := hto t rfl
  have hinv := hv _ _ _ hst
  rw [held_token hst] at hb
  have hle := hinv.le_supply S
  have hfits := hinv.fits
  have hxlt : x < B128 := by omega
  have hxf := (xfer_token (v := w) (dst := rou) hst (Nat.ne_of_gt hx0) hb)
  have hs1 := step_token_of (adv := adv) (n := n + 4 * ops.length + 2) (sender := S) htr hst
    (by simp only [ExecMsg.inRange, decide_eq_true_eq]; exact hxlt)
    (Token.execute_send (blk := w.block) (hk := .executeSwapOperations ops mn dst) hinv (Nat.ne_of_gt hx0)
      (validate_of_resolve hres) hb)
  generalize hv1 : w.setState t tadm (.token { st with balances := Token.moveBal st.balances S rou x }) = v1 at hxf hs1
  have hv1' : TokensOk v1 := hv.step (step_inv hs1)
  have hrs := h.start hc hw hxf
  have hks : ∀ k ∈ ks, ∀ i, held v1 i k.a = held w i k.a := fun k hk i =>
    hxf.outside (Ne.symm (h.ne_pairs hc hw k hk)) (h.pairs_ne k hk) i
  -- the hops
  obtain ⟨b1, hl1, _⟩ := hl.congr (b2 := fun q i => held v1 i q) hks
  obtain ⟨m, u, hnm, hrun⟩ := hrs.live adv hres h.names hrcv (P := fun q => q ≠ rou) (fun e => e rfl) (n + 1) hv1' h.pairs_ne
    (fun _ _ _ => rfl) (fun k hk d hd => by
      rw [hks k hk]
      have := (hfit k hk).lt hv
      rcases hd with e | e
      · rw [← e]; exact this.1
      · rw [← e]; exact this.2) hl1
  rw [show n + 1 + 4 * ops.length = n + 4 * ops.length + 1 by omega] at hrun
  obtain ⟨y', b2, hl2, e1, e2, _⟩ := h.after hc hw hxf hrun
  obtain ⟨rfl, _⟩ := hl.unique hl2
  -- the receiver's balance of the target stays within 128 bits
  have hsum : mn ≠ none → held v1 last.ask (dst.getD S) + y < B128 := by
    intro hne
    obtain ⟨mm, hmm⟩ := Option.ne_none_iff_exists'.mp hne
    cases hla : last.ask with
    | token t' =>
      rw [hla] at e2
      rw [← e2]
      exact held_lt (hv1'.run hrun) t' _
    | native d =>
      obtain ⟨k, hk, hy⟩ := hl.native_le h.tail hla
      have h1 := hbig mm d hmm hla k hk
      have h2 : held v1 (.native d) (dst.getD S) = held w (.native d) (dst.getD S) := hxf.other _ (by simp) _
      rw [h2]
      exact lt_of_le_of_lt (Nat.add_le_add_left hy _) h1
  have hin : (HookMsg.executeSwapOperations ops mn dst).inRange = true := by
    cases mn with
    | none => rfl
    | some mm =>
      have := hm mm rfl
      have := hsum (by simp)
      simp only [HookMsg.inRange, optLt, decide_eq_true_eq]
      omega
  -- the router accepts the request
  have hq1 : ∀ q, mn ≠ none → last.ask.queryPool (querier c q v1) c.api (dst.getD S) = .ok (held v1 last.ask (dst.getD S)) :=
    fun q hne => queryPool_live (hxf.keep.honest htg) htg2 (PairSite.resolve_of_validate hrcv)
      (lt_of_le_of_lt (Nat.le_add_right _ _) (hsum hne))
  obtain ⟨⟨s1, r⟩, hex⟩ := (C34_hook_accepted_iff (api := c.api) (q := querier c (adv.query (n + 4 * ops.length + 1)) v1)
    (me := rou) (caller := t) (s := s) (S := S) (x := x) (ops := ops) (mn := mn) (dst := dst)).mpr
    ⟨h.user.2, hdst, last, h.tail, resold_of_connected h.con h.tail, by
      cases mn with
      | none => exact .inl rfl
      | some mm => exact .inr ⟨_, hq1 _ (by simp)⟩⟩
  have hs2 := step_router_of (adv := adv) (n := n + 4 * ops.length + 1) (sender := t) hres hrs.router
    (by simp only [ExecMsg.inRange, Bool.and_eq_true, decide_eq_true_eq]; exact ⟨hxlt, hin⟩) hex
  obtain ⟨_, last', hl', _, ⟨rfl, rfl⟩ | ⟨mm, prev, rfl, hprev, rfl⟩⟩ := Router.request_inv (.hook t x) hex
  · refine runTx_of ⟨m, u, run_cons_of hs1 (run_cons_of hs2 ?_)⟩
    simpa [frames, replyFrame, Function.comp_def] using hrun
  · have hlast := h.tail
    rw [hl'] at hlast
    cases hlast
    have hp := hq1 (adv.query (n + 4 * ops.length + 1)) (by simp)
    change last.ask.queryPool _ _ _ = _ at hprev
    rw [hp] at hprev
    cases hprev
    obtain ⟨m', rfl⟩ : ∃ m', m = m' + 1 := ⟨m - 1, by omega⟩
    have hq2 := queryPool_live (c := c) (q := adv.query m') ((hxf.keep.trans e1).honest htg) htg2
      (PairSite.resolve_of_validate hrcv) (by rw [e2]; exact hsum (by simp))
    have hs3 := step_router_of (adv := adv) (n := m') (sender := rou) hres
      (e1.contracts hrs.router (by intro _ h; cases h)) (s' := s) (r := {})
      (m := .assertMinimumReceive last.ask (held v1 last.ask (dst.getD S)) mm (dst.getD S))
      (by
        have := hm mm rfl
        have := hsum (by simp)
        simp only [ExecMsg.inRange, Bool.and_eq_true, decide_eq_true_eq]
        omega)
      (by
        simp only [Router.execute, Router.assertMinimumReceive, bind_eq_ok, pure_eq_ok, require_eq_ok,
          Uint128.checkedSub_eq_ok]
        have := hm mm rfl
        exact ⟨_, hrcv, _, hq2, _, ⟨by omega, rfl⟩, (), by omega, trivial⟩)
    refine runTx_of ⟨m', u, run_cons_of hs1 (run_cons_of hs2 ?_)⟩
    change run _ _ _ _ (_ ++ []) = _
    simp only [List.append_nil, frames, List.map_append, List.map_cons, List.map_nil, List.map_map, Function.comp_def]
    exact run_append.mpr ⟨m' + 1, u, hrun, run_cons_of hs3 run_nil⟩

end OnWalk

/-- Swaps made by hand, as amounts along the route. -/
theorem ByHand.walk {c : Chain} (hc : c.Lawful) {S : Addr} (hS : c.IsUser S) {bp ms : Option Nat} {fs : Factory.State} {w w2 : World}
    {ops : List SwapOp} {ks : List PairSite} {x z : Nat} (h : ByHand c S bp ms w ops ks x w2 z) :
    ∀ {b : Holds}, Reachable c w → List.Forall₂ (fun op k => k.Sound c w ∧ k.Dir op.offer op.ask) ops ks →
    (ops.IsChain fun a b => a.ask = b.offer) →
    (∀ op ∈ ops, ∃ info, chkPI (Factory.queryPair c.api fs (op.offer, op.ask)) = .ok info) →
    (∀ q, q ≠ S → ∀ i, b q i = held w i q) →
    (bp = none → ms = none → ∃ b', Walk c fs b ops ks x z b' ∧ ∀ q, q ≠ S → ∀ i, b' q i = held w2 i q) ∧
    ∀ first last, ops.head? = some first → ops.getLast? = some last → x ≠ 0 ∧ x ≤ held w first.offer S ∧
      ∀ i, held w2 i S + (if i = first.offer then x else 0) = held w i S + if i = last.ask then z else 0 := by
  induction h with
  | done w x => intro b _ _ _ _ hb; exact ⟨fun _ _ => ⟨b, ⟨rfl, rfl⟩, hb⟩, by intro _ _ h; cases h⟩
  | @swap w w1 w2 op ops k ks x y z t adv gas ht hrun hy hrest ih =>
    intro b hw hks hcon hi hb
    cases hks with
    | cons hk hks =>
    obtain ⟨hw1, hkeep, h0, hle, r, s, cm, hp, hsp, e1, e2, e3, e4, e5⟩ := hand_swap hc hw hS hk.1 hk.2 ht hrun
    have hne := hk.2.ne (hk.1.ctx hc)
    have hyr : y = r := by
      have := e4 op.ask
      rw [if_neg (Ne.symm hne), if_pos rfl] at this
      omega
    subst hyr
    have hSa : S ≠ k.a := (addr_facts hc hw hk.1.pair).2 S hS
    have hb1 := WalkSt.traded (P := fun q => q ≠ S) hne hb (fun q hq hqk l => e5 q hq hqk l) e1 e2 e3
    obtain ⟨g1, g3⟩ := ih hw1 (hks.imp fun op' k' hs => ⟨((hs.1.good hc hw).keep hkeep).sound (hs.1.ctx hc), hs.2⟩)
      hcon.tail (fun op' ho => hi op' (.tail _ ho)) hb1
    refine ⟨fun n1 n2 => ?_, ?_⟩
    · obtain ⟨b', k1, k2⟩ := g1 n1 n2
      subst n1 n2
      exact ⟨b', ⟨h0, ⟨t, ht⟩, hi op (.head _), y, s, cm, by rw [hb _ (Ne.symm hSa), hb _ (Ne.symm hSa)]; exact hp, hsp, k1⟩, k2⟩
    · intro first last hf hl
      cases hf
      refine ⟨h0, hle, fun i => ?_⟩
      have := e4 i
      cases ops with
      | nil =>
        cases hrest
        cases hl
        exact this
      | cons op2 ops =>
        have g := (g3 op2 last rfl (by simpa using hl)).2.2 i
        have hcc : op.ask = op2.offer := (List.isChain_cons_cons.mp hcon).1
        rw [← hcc] at g
        omega

/-- Where the hops have prices, the single swaps succeed. -/
theorem Walk.hand {c : Chain} (hc : c.Lawful) {S : Addr} (hS : c.IsUser S) (adv : Adv) {fs : Factory.State} :
    ∀ {ops : List SwapOp} {ks : List PairSite} {w : World} {b b' : Holds} {x y : Nat}, Reachable c w →
    List.Forall₂ (fun op k => k.Sound c w ∧ k.Dir op.offer op.ask) ops ks →
    (ops.IsChain fun a b => a.ask = b.offer) → (∀ k ∈ ks, ∀ d, k.i0 = .native d ∨ k.i1 = .native d → b k.a (.native d) < B128) →
    (∀ q, q ≠ S → ∀ i, b q i = held w i q) →
    (∀ first, ops.head? = some first → x ≤ held w first.offer S) → Walk c fs b ops ks x y b' →
    ∃ w2, ByHand c S none none w ops ks x w2 y := by
  intro ops
  induction ops with
  | nil =>
    intro ks w b b' x y _ hks _ _ _ _ hl
    cases hks
    cases hl.1
    exact ⟨w, .done w x⟩
  | cons op ops ih =>
    intro ks w b b' x y hw hks hcon hbd hb hx hl
    cases hks with
    | cons hk hks =>
    rename_i k ks
    obtain ⟨h0, ⟨t, ht⟩, _, r, s, cm, hp, hsp, hrest⟩ := hl
    have hSa : S ≠ k.a := (addr_facts hc hw hk.1.pair).2 S hS
    have hbk := hb k.a (Ne.symm hSa)
    rw [hbk, hbk] at hp
    obtain ⟨_, _, hr⟩ := computeSwap_form hp
    have hg := grossOf_le (held w op.offer k.a) (held w op.ask k.a) x
    have hbb : held w op.ask k.a < B128 := by
      cases hi : op.ask with
      | token t => exact held_lt hw.tokensOk t k.a
      | native d =>
        rw [← hbk]
        refine hbd k (.head _) d ?_
        rw [← hi]
        exact hk.2.snd.imp Eq.symm Eq.symm
    have hxS := hx op rfl
    obtain ⟨n', w1, _, hrun⟩ := (hk.1.good hc hw).swap_live adv 0 (S := S) (t := t) (dst := none) hw.tokensOk (hk.1.ctx hc)
      (addr_facts hc hw hk.1.pair).1 (PairSite.resolve_of_validate hS.2) hSa (j := op.ask) (ht ▸ hk.2) hbb h0 (ht ▸ hxS)
      (fun _ e => nomatch e) rfl (ht ▸ hp) (by omega) (ht ▸ hsp)
    obtain ⟨w1, hrun⟩ := runTx_of ⟨n', w1, hrun⟩
    obtain ⟨hw1, hkeep, _, _, r', s', cm', hp', _, e1, e2, e3, e4, e5⟩ := hand_swap hc hw hS hk.1 hk.2 ht hrun
    rw [hp] at hp'
    cases hp'
    have hne := hk.2.ne (hk.1.ctx hc)
    have hy : held w1 op.ask S = held w op.ask S + r := by
      have := e4 op.ask
      rw [if_neg (Ne.symm hne), if_pos rfl] at this
      omega
    have hb1 := WalkSt.traded (P := fun q => q ≠ S) hne hb (fun q hq hqk l => e5 q hq hqk l) e1 e2 e3
    obtain ⟨w2, h2⟩ := ih hw1 (hks.imp fun op' k' hs => ⟨((hs.1.good hc hw).keep hkeep).sound (hs.1.ctx hc), hs.2⟩)
      hcon.tail (fun k' hk' d hd => lt_of_le_of_lt (ht ▸ Holds.traded_native _ _) (hbd k' (.tail _ hk') d hd)) hb1
      (fun first hf => by
        cases ops with
        | nil => cases hf
        | cons op2 ops =>
          cases hf
          rw [← (List.isChain_cons_cons.mp hcon).1, hy]
          omega)
      hrest
    exact ⟨w2, .swap ht hrun hy h2⟩

/-- The factory knows every hop of a route that goes through. -/
theorem Walk.known {c : Chain} {fs : Factory.State} : ∀ {ops : List SwapOp} {ks : List PairSite} {b b' : Holds} {x y : Nat},
    Walk c fs b ops ks x y b' → ∀ op ∈ ops, ∃ info, chkPI (Factory.queryPair c.api fs (op.offer, op.ask)) = .ok info := by
  intro ops
  induction ops with
  | nil => intro _ _ _ _ _ _ _ h; cases h
  | cons op ops ih =>
    intro ks b b' x y h op' ho
    cases ks with
    | nil => cases h
    | cons k ks =>
      obtain ⟨_, _, hi, _, _, _, _, _, h2⟩ := h
      rcases List.mem_cons.mp ho with rfl | ho
      · exact hi
      · exact ih h2 op' ho

/-- **C123.** What the router does with a route, whether or not it visits a pair again, is what its sender could do by hand: it goes
through if and only if the receiver's address is valid, the swaps, made one by one by the sender without limits, go through, the factory
knows their pairs, and the last swap pays at least the demanded minimum. (Native reserves, and the receiver's balance of a native target
if there is a minimum, are below `2^128`.) -/
theorem C123_iff_by_hand {c : Chain} (hc : c.Lawful) {w : World} (hw : Reachable c w) {S rou f t : Addr}
    {adm fadm : Option Addr} {s : Router.State} {fs : Factory.State} {ops : List SwapOp} {ks : List PairSite}
    {first last : SwapOp} {dst : Option Str} (h : OnWalk c w S rou f t adm fadm s fs ops ks first last dst)
    (hfit : ∀ k ∈ ks, Fits k w) (mn : Option Nat)
    (hbig : ∀ m d, mn = some m → last.ask = .native d → ∀ k ∈ ks, w.bal d (dst.getD S) + w.bal d k.a < 2 ^ 128)
    (x : Nat) (adv : Adv) (q : Querier) :
    (∃ gas w', runTx c adv gas w S (.exec t (.send rou x (.executeSwapOperations ops mn dst)) []) = .ok w') ↔
      (∀ d, dst = some d → c.api.validate d = .ok d) ∧
      (∃ w2 z, ByHand c S none none w ops ks x w2 z ∧ ∀ m, mn = some m → m ≤ z) ∧
      ∀ op ∈ ops, ∃ info, (querier c q w).pairInfo f (op.offer, op.ask) = .ok info := by
  have hfr := hc.resolve_human h.names
  have hks := h.pairs.imp fun _ _ hs => And.intro hs.1 hs.2.1
  constructor
  · rintro ⟨gas, w', hrun⟩
    obtain ⟨hd, hle, y, b', hl, hm, _⟩ := h.parts hc hw hrun
    obtain ⟨w2, h2⟩ := hl.hand hc h.user adv hw hks h.con (fun k hk d hd => by
        have := (hfit k hk).lt hw.tokensOk
        rcases hd with e | e
        · rw [← e]; exact this.1
        · rw [← e]; exact this.2) (fun _ _ _ => rfl)
      (fun first' hf => by
        rw [h.head] at hf
        cases hf
        rw [h.offer]; exact hle)
    refine ⟨hd, ⟨w2, y, h2, hm⟩, fun op ho => ?_⟩
    obtain ⟨info, hi⟩ := hl.known op ho
    exact ⟨info, (pairInfo_iff h.factory hfr).mpr hi⟩
  · rintro ⟨hd, ⟨w2, z, hh, hm⟩, hi⟩
    obtain ⟨g1, g2⟩ := hh.walk hc h.user (fs := fs) (b := fun q i => held w i q) hw hks h.con (fun op ho => by
      obtain ⟨info, hi⟩ := hi op ho
      exact ⟨info, (pairInfo_iff h.factory hfr).mp hi⟩) fun _ _ _ => rfl
    obtain ⟨b', hl, _⟩ := g1 rfl rfl
    obtain ⟨h0, hle, _⟩ := g2 first last h.head h.tail
    exact ⟨_, h.goes hc hw hfit hbig adv 0 (Nat.pos_of_ne_zero h0) (h.offer ▸ hle) hd hl hm⟩

/-- **C123.** A route through the router, whether or not it visits a pair again, and its swaps made by hand one by one, from the same
state, leave every account with the same balances, except that the proceeds `z` of the last swap are with the receiver instead of the
sender. In particular the router is left as it was. -/
theorem C123_same_as_by_hand {c : Chain} (hc : c.Lawful) {w w1 w2 : World} (hw : Reachable c w) {S rou f t : Addr}
    {adm fadm : Option Addr} {s : Router.State} {fs : Factory.State} {ops : List SwapOp} {ks : List PairSite}
    {first last : SwapOp} {dst : Option Str} (h : OnWalk c w S rou f t adm fadm s fs ops ks first last dst)
    {mn : Option Nat} {x : Nat} {adv : Adv} {gas : Nat}
    (hr : runTx c adv gas w S (.exec t (.send rou x (.executeSwapOperations ops mn dst)) []) = .ok w1)
    {z : Nat} (hh : ByHand c S none none w ops ks x w2 z) :
    (∀ m, mn = some m → m ≤ z) ∧
    ∀ i b, held w1 i b + (if b = S ∧ i = last.ask then z else 0) = held w2 i b + (if b = dst.getD S ∧ i = last.ask then z else 0) := by
  have hks := h.pairs.imp fun _ _ hs => And.intro hs.1 hs.2.1
  have hSr : S ≠ rou := (addr_facts hc hw h.router).2 S h.user
  obtain ⟨_, hle, y, b', hl, hm, e1, e2, e3, e4⟩ := h.parts hc hw hr
  obtain ⟨g1, g2⟩ := hh.walk hc h.user (fs := fs) (b := fun q i => held w i q) hw hks h.con hl.known fun _ _ _ => rfl
  obtain ⟨b2, hl2, g3⟩ := g1 rfl rfl
  obtain ⟨rfl, rfl⟩ := hl.unique hl2
  obtain ⟨_, _, g4⟩ := g2 first last h.head h.tail
  have hoff : ∀ b, (∀ k ∈ ks, k.a ≠ b) → ∀ i, b' b i = held w i b := fun b hb i => by
    rw [hl.off b fun hm => by
      obtain ⟨k, hk, e⟩ := List.mem_map.mp hm
      exact hb k hk e]
  refine ⟨hm, fun i b => ?_⟩
  have f1 := e1 i
  have f4 := g4 i
  rw [h.offer] at f4
  by_cases hS : b = S
  · subst hS
    simp only [true_and]
    by_cases hd : dst.getD b = b
    · simp only [hd, true_and] at f1 ⊢
      by_cases hi : i = .token t
      · rw [if_pos hi] at f1 f4
        rw [← hi] at hle
        omega
      · rw [if_neg hi] at f1 f4
        omega
    · have f2 := e2 (Ne.symm hd) i
      rw [if_neg (c := b = dst.getD b ∧ i = last.ask) (fun e => hd e.1.symm)]
      by_cases hi : i = .token t
      · rw [if_pos hi] at f2 f4
        rw [← hi] at hle
        omega
      · rw [if_neg hi] at f2 f4
        omega
  · rw [if_neg (fun e => hS e.1)]
    by_cases hd : b = dst.getD S
    · have f3 := g3 b hS i
      rw [hoff b (fun k hk e => h.rcv_pairs k hk (hd ▸ e.symm))] at f3
      rw [← hd, if_neg (fun e => hS e.1)] at f1
      simp only [hd, true_and] at f1 f3 ⊢
      omega
    · rw [if_neg (fun e => hd e.1)]
      by_cases hb : b = rou
      · have f3 := g3 b hS i
        rw [hoff b (fun k hk e => h.pairs_ne k hk (hb ▸ e))] at f3
        rw [hb] at f3 ⊢
        rw [e3 i, ← f3]
      · rw [e4 b hS hb hd i, g3 b hS i]

/-- A worse pair pays no more. -/
theorem computeSwap_worse {o o' a a' x x' r r' s s' cm cm' : Nat} (h : Pair.computeSwap o a x = .ok (r, s, cm))
    (h' : Pair.computeSwap o' a' x' = .ok (r', s', cm')) (ho : o ≤ o') (ha : a' ≤ a) (hx : x' ≤ x) : r' ≤ r := by
  obtain ⟨h1, _, rfl⟩ := computeSwap_form h
  obtain ⟨h2, _, rfl⟩ := computeSwap_form h'
  have g1 := gross_anti_offer (a := a') (x := x') h1 ho
  have g2 := gross_mono_ask (x := x') h1 ha
  have g3 := gross_mono (a := a) h1 hx
  omega

theorem Walk.le_quote {c : Chain} {fs : Factory.State} {w : World} : ∀ {ops : List SwapOp} {ks : List PairSite} {b b' : Holds}
    {x x' y y' : Nat}, Walk c fs b ops ks x y b' → Quote w ops ks x' y' → x ≤ x' →
    (∀ op k, (op, k) ∈ ops.zip ks → held w op.offer k.a ≤ b k.a op.offer ∧ b k.a op.ask ≤ held w op.ask k.a ∧ op.offer ≠ op.ask) →
    (∀ op k op' k', (op, k) ∈ ops.zip ks → (op', k') ∈ ops.zip ks → k.a = k'.a → op = op') → y ≤ y' := by
  intro ops
  induction ops with
  | nil =>
    intro ks b b' x x' y y' h h' hx _ _
    cases ks with
    | nil => cases h.1; cases h'; exact hx
    | cons => cases h
  | cons op ops ih =>
    intro ks b b' x x' y y' h h' hx hb hd
    cases ks with
    | nil => cases h
    | cons k ks =>
      obtain ⟨_, _, _, r, s, cm, h1, _, h2⟩ := h
      obtain ⟨r', s', cm', h1', h2'⟩ := h'
      obtain ⟨b1, b2, hne⟩ := hb op k (by simp)
      refine ih h2 h2' (computeSwap_worse h1' h1 b1 b2 hx) (fun op' k' hm => ?_)
        fun o1 k1 o2 k2 m1 m2 e => hd o1 k1 o2 k2 (.tail _ m1) (.tail _ m2) e
      obtain ⟨c1, c2, c3⟩ := hb op' k' (.tail _ hm)
      unfold Holds.traded
      by_cases hk : k'.a = k.a
      · obtain rfl := hd op' k' op k (.tail _ hm) (by simp) hk
        simp only [hk, if_true, if_neg (Ne.symm hne)]
        refine ⟨by omega, by omega, c3⟩
      · rw [if_neg hk, if_neg hk]
        exact ⟨c1, c2, c3⟩

/-- **C123.** If a route that visits pairs again always trades in the same direction there, it never pays more than the router quotes
for it. (The quote takes every pair as it is before the route; that a quote can be too high or, for routes that turn round, too low, is
`C123_quote_too_high` and `C123_quote_too_low`.) -/
theorem C123_quote_is_a_ceiling {c : Chain} (hc : c.Lawful) {w w' : World} (hw : Reachable c w) {S rou f t : Addr}
    {adm fadm : Option Addr} {s : Router.State} {fs : Factory.State} {ops : List SwapOp} {ks : List PairSite}
    {first last : SwapOp} {dst : Option Str} (h : OnWalk c w S rou f t adm fadm s fs ops ks first last dst)
    (hdir : ∀ op k op' k', (op, k) ∈ ops.zip ks → (op', k') ∈ ops.zip ks → k.a = k'.a → op = op')
    {q : Querier} {x y : Nat} (hq : Router.simulateSwapOperations c.api (querier c q w) s x ops = .ok y)
    {mn : Option Nat} {adv : Adv} {gas : Nat}
    (hr : runTx c adv gas w S (.exec t (.send rou x (.executeSwapOperations ops mn dst)) []) = .ok w') :
    (∀ m, mn = some m → m ≤ y) ∧
    held w' last.ask (dst.getD S) ≤
      held w last.ask (dst.getD S) - (if dst.getD S = S ∧ last.ask = .token t then x else 0) + y := by
  have hfr := hc.resolve_human h.names
  have hsites := hopSites hc hw h.pairs
  simp only [Router.simulateSwapOperations, bind_eq_ok, humanize_eq_ok, require_eq_ok] at hq
  obtain ⟨f', hf', _, _, hq⟩ := hq
  rw [h.names] at hf'
  cases hf'
  have hquote := Quote.of_sim h.factory hfr hsites hq
  obtain ⟨_, _, y', b', hl, hmin, e1, _⟩ := h.parts hc hw hr
  have hle : y' ≤ y := by
    refine hl.le_quote hquote (Nat.le_refl _) (fun op k hm => ⟨Nat.le_refl _, Nat.le_refl _, ?_⟩) hdir
    clear * - hsites hm
    induction hsites with
    | nil => simp at hm
    | cons h1 _ ih =>
      simp only [List.zip_cons_cons, List.mem_cons, Prod.mk.injEq] at hm
      rcases hm with ⟨rfl, rfl⟩ | hm
      · exact h1.dir.ne h1.ctx
      · exact ih hm
  refine ⟨fun m e => le_trans (hmin m e) hle, ?_⟩
  have := e1 last.ask
  rw [if_pos rfl] at this
  omega

/-! ## Examples -/

namespace Demo

/-- From A to B and back over the same pair, paid to somebody else. -/
def turn : List SwapOp := [⟨.token tA, .token tB⟩, ⟨.token tB, .token tA⟩]

theorem lookBA {info : PairInfo} (h : Factory.queryPair chain.api (facState deployed fac) (.token tB, .token tA) = .ok info) :
    info.contractAddr = pAB := by
  have e : val (Factory.queryPair chain.api (facState deployed fac) (.token tB, .token tA)) = some info := by rw [h]; rfl
  have e2 : (val (Factory.queryPair chain.api (facState deployed fac) (.token tB, .token tA))).map
    PairInfo.contractAddr = some pAB := by decide +kernel
  rw [e] at e2; exact Option.some.inj e2

theorem turn_route : OnWalk chain deployed user rou fac tA none none ⟨fac⟩ (facState deployed fac) turn [siteAB, siteAB]
    ⟨.token tA, .token tB⟩ ⟨.token tB, .token tA⟩ (some user2) :=
  ⟨isUser_user, rouAt_eq (p := (none, ⟨fac⟩)) (by decide +kernel), rfl, facState_eq (a := fac) (by decide +kernel),
    .cons ⟨sound_AB, .inl ⟨rfl, rfl⟩, fun _ h => lookAB h⟩ (.cons ⟨sound_AB, .inr ⟨rfl, rfl⟩, fun _ h => lookBA h⟩ .nil),
    by decide +kernel, rfl, rfl, rfl, by decide +kernel, by decide +kernel, by decide +kernel⟩

theorem turn_fits : ∀ k ∈ [siteAB, siteAB], Fits k deployed := by
  intro k hk
  simp only [List.mem_cons, List.not_mem_nil, or_false, or_self] at hk
  subst hk
  exact fits_of rfl rfl _

def turnMsg (m : Nat) : CosmosMsg := .exec tA (.send rou 1000 (.executeSwapOperations turn (some m) (some user2))) []
def turned : World := worldOf (runTx chain idle 20 deployed user (turnMsg 900))
theorem turned_run : runTx chain idle 20 deployed user (turnMsg 900) = .ok turned := worldOf_eq (by decide +kernel)

def handBack : World := worldOf (runTx chain idle 20 leg1 user (.exec tB (.send pAB 1813 (.swap none none none)) []))
theorem handBack_run : runTx chain idle 20 leg1 user (.exec tB (.send pAB 1813 (.swap none none none)) []) = .ok handBack :=
  worldOf_eq (by decide +kernel)
theorem turn_byHand : ByHand chain user none none deployed turn [siteAB, siteAB] 1000 handBack 995 :=
  .swap rfl leg1_run (by decide +kernel) (.swap rfl handBack_run (by decide +kernel) (.done _ _))

/-- 1000 A go in and 995 come out, for `user2`. -/
example : held turned (.token tA) user2 = held deployed (.token tA) user2 + 995 := by
  have h := (C123_same_as_by_hand lawful deployed_reachable turn_route turned_run turn_byHand).2 (.token tA) user2
  rw [if_neg (by decide), if_pos (by decide)] at h
  have e : held handBack (.token tA) user2 = held deployed (.token tA) user2 := by decide +kernel
  rw [← e]; exact h

/-- With a minimum of 996 the route does not go through, whatever other contracts do. -/
example (adv : Adv) : ¬ ∃ gas w', runTx chain adv gas deployed user (turnMsg 996) = .ok w' := by
  intro h
  obtain ⟨_, ⟨w2, z, hh, hm⟩, _⟩ := (C123_iff_by_hand lawful deployed_reachable turn_route turn_fits (some 996)
    (fun _ _ _ h => nomatch h) 1000 adv (q 0 0 0)).mp h
  obtain ⟨_, _, _, _, hl0, _⟩ := turn_route.parts lawful deployed_reachable turned_run
  obtain ⟨b', hl, _⟩ := (hh.walk lawful isUser_user (fs := facState deployed fac) (b := fun q i => held deployed i q)
    deployed_reachable (turn_route.pairs.imp fun _ _ hs => ⟨hs.1, hs.2.1⟩) turn_route.con hl0.known
    (fun _ _ _ => rfl)).1 rfl rfl
  obtain ⟨b2, hl2, _⟩ := (turn_byHand.walk lawful isUser_user (fs := facState deployed fac) (b := fun q i => held deployed i q)
    deployed_reachable (turn_route.pairs.imp fun _ _ hs => ⟨hs.1, hs.2.1⟩) turn_route.con hl.known (fun _ _ _ => rfl)).1 rfl rfl
  obtain ⟨rfl, _⟩ := hl.unique hl2
  exact absurd (hm _ rfl) (by decide)

/-- Twice round the triangle A, B, C. -/
theorem twice_route : OnWalk chain triangle user rou fac tA none none ⟨fac⟩ (facState triangle fac) (round ++ round)
    [siteAB, siteBC, siteAC, siteAB, siteBC, siteAC] ⟨.token tA, .token tB⟩ ⟨.token tC, .token tA⟩ (some user2) := by
  have h := round_route
  refine ⟨h.user, h.router, h.names, h.factory, ?_, by decide +kernel, rfl, rfl, rfl, by decide +kernel, by decide +kernel, by decide +kernel⟩
  have hp := h.pairs
  exact List.rel_append hp hp

def twice : World := worldOf (runTx chain idle 40 triangle user
  (.exec tA (.send rou 1000 (.executeSwapOperations (round ++ round) none (some user2))) []))
theorem twice_run : runTx chain idle 40 triangle user
    (.exec tA (.send rou 1000 (.executeSwapOperations (round ++ round) none (some user2))) []) = .ok twice := worldOf_eq (by decide +kernel)

theorem twice_quote : Router.simulateSwapOperations chain.api (querier chain (q 0 0 0) triangle) ⟨fac⟩ 1000 (round ++ round) = .ok 493 :=
  val_eq (by decide +kernel)

/-- 493 A are quoted; the second round is dearer than the first. -/
example := C123_quote_is_a_ceiling lawful triangle_reachable twice_route (by
  intro op k op' k' h h' e
  have key : ∀ p ∈ (round ++ round).zip ([siteAB, siteBC, siteAC, siteAB, siteBC, siteAC].map PairSite.a),
      ∀ p' ∈ (round ++ round).zip ([siteAB, siteBC, siteAC, siteAB, siteBC, siteAC].map PairSite.a), p.2 = p'.2 → p.1 = p'.1 := by
    decide +kernel
  have up : ∀ {op : SwapOp} {k : PairSite}, (op, k) ∈ (round ++ round).zip [siteAB, siteBC, siteAC, siteAB, siteBC, siteAC] →
      (op, k.a) ∈ (round ++ round).zip ([siteAB, siteBC, siteAC, siteAB, siteBC, siteAC].map PairSite.a) := by
    intro op k h
    rw [List.zip_map_right]
    exact List.mem_map.mpr ⟨_, h, rfl⟩
  exact key _ (up h) _ (up h') e) twice_quote twice_run

end Demo

open Demo in
/-- **C123.** The router's quote for a route that visits a pair again can be too high: on a deployed exchange, twice round a triangle is
quoted at 493 A and pays 240, so a sender who insists on half the quote is turned down. -/
theorem C123_quote_too_high : Reachable chain triangle ∧
    OnWalk chain triangle user rou fac tA none none ⟨fac⟩ (facState triangle fac) (round ++ round)
      [siteAB, siteBC, siteAC, siteAB, siteBC, siteAC] ⟨.token tA, .token tB⟩ ⟨.token tC, .token tA⟩ (some user2) ∧
    Router.simulateSwapOperations chain.api (querier chain (q 0 0 0) triangle) ⟨fac⟩ 1000 (round ++ round) = .ok 493 ∧
    ∃ w' gas, runTx chain idle gas triangle user
      (.exec tA (.send rou 1000 (.executeSwapOperations (round ++ round) none (some user2))) []) = .ok w' ∧
      held w' (.token tA) user2 = held triangle (.token tA) user2 + 240 :=
  ⟨triangle_reachable, twice_route, twice_quote, twice, 40, twice_run, by decide +kernel⟩

open Demo in
/-- **C123.** It can be too low as well, for a route that turns round: from A to B and back over the same pair 829 A are quoted for 1000
and 995 are paid. -/
theorem C123_quote_too_low : Reachable chain deployed ∧
    OnWalk chain deployed user rou fac tA none none ⟨fac⟩ (facState deployed fac) turn [siteAB, siteAB]
      ⟨.token tA, .token tB⟩ ⟨.token tB, .token tA⟩ (some user2) ∧
    Router.simulateSwapOperations chain.api (querier chain (q 0 0 0) deployed) ⟨fac⟩ 1000 turn = .ok 829 ∧
    ∃ w' gas, runTx chain idle gas deployed user (.exec tA (.send rou 1000 (.executeSwapOperations turn (some 900) (some user2))) []) =
      .ok w' ∧ held w' (.token tA) user2 = held deployed (.token tA) user2 + 995 :=
  ⟨deployed_reachable, turn_route, val_eq (by decide +kernel), turned, 20, turned_run, by decide +kernel⟩

end Halo
