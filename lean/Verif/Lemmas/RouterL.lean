import Verif.Lemmas.XferL
/-! # The router during an execution (helper lemmas for C32, C35, C36) -/

namespace Halo
open _root_.Halo.Spec

namespace Router

/-- The router never changes its storage. -/
theorem execute_state {api : Api} {q : Querier} {me sender : Addr} {s s' : State} {m : ExecMsg} {r : Response}
    (h : execute api q me s sender m = .ok (s', r)) : s' = s := by
  have ops : ∀ {sender ops mn dst}, executeSwapOperations api q me s sender ops mn dst = .ok (s', r) → s' = s := by
    intro sender ops mn dst h
    simp only [executeSwapOperations, bind_eq_ok] at h
    obtain ⟨_, _, _, _, h⟩ := h
    cases mn with
    | none => simp only [pure_eq_ok, Prod.mk.injEq] at h; exact h.1.symm
    | some m =>
      simp only [bind_eq_ok, pure_eq_ok, Prod.mk.injEq] at h
      obtain ⟨_, _, h, _⟩ := h
      exact h.symm
  cases m with
  | receive sd x hk =>
    simp only [execute, receiveCw20, bind_eq_ok] at h
    obtain ⟨_, _, h⟩ := h
    cases hk with
    | executeSwapOperations o mn t =>
      simp only [bind_eq_ok] at h
      obtain ⟨_, _, h⟩ := h
      exact ops h
    | _ => cases h
  | executeSwapOperations o mn t =>
    simp only [execute, bind_eq_ok] at h
    obtain ⟨_, _, h⟩ := h
    exact ops h
  | executeSwapOperation o t =>
    simp only [execute, executeSwapOperation, bind_eq_ok, pure_eq_ok, Prod.mk.injEq] at h
    obtain ⟨_, _, _, _, _, _, _, _, _, _, h, _⟩ := h
    exact h.symm
  | assertMinimumReceive _ _ _ _ =>
    simp only [execute, assertMinimumReceive, bind_eq_ok, pure_eq_ok, Prod.mk.injEq] at h
    obtain ⟨_, _, _, _, _, _, _, _, h, _⟩ := h
    exact h.symm
  | _ => cases h

/-- A route request: sent directly, or by a token on behalf of `by_`. -/
inductive Request (by_ : Addr) (ops : List SwapOp) (mn : Option Nat) (dst : Option Str) : Addr → ExecMsg → Prop where
  | direct : Request by_ ops mn dst by_ (.executeSwapOperations ops mn dst)
  | hook (t : Addr) (x : Nat) : Request by_ ops mn dst t (.receive by_ x (.executeSwapOperations ops mn dst))

/-- What an accepted route request answers. -/
theorem request_inv {api : Api} {q : Querier} {me caller S : Addr} {s s' : State} {m : ExecMsg} {r : Response}
    {ops : List SwapOp} {mn : Option Nat} {dst : Option Str} (hm : Request S ops mn dst caller m)
    (h : execute api q me s caller m = .ok (s', r)) :
    (∀ d, dst = some d → api.validate d = .ok d) ∧ ∃ last, ops.getLast? = some last ∧ assertOperations ops = .ok () ∧
      ((mn = none ∧ r = { messages := (hopMsgs me (dst.getD S) ops).map plain }) ∨
       ∃ x prev, mn = some x ∧ last.target.queryPool q api (dst.getD S) = .ok prev ∧
        r = { messages := (hopMsgs me (dst.getD S) ops ++
          [CosmosMsg.exec me (.assertMinimumReceive last.target prev x (dst.getD S)) []]).map plain }) := by
  have key : ∀ {d2}, optValidate api dst = .ok d2 → executeSwapOperations api q me s S ops mn d2 = .ok (s', r) →
      (∀ d, dst = some d → api.validate d = .ok d) ∧ ∃ last, ops.getLast? = some last ∧ assertOperations ops = .ok () ∧
      ((mn = none ∧ r = { messages := (hopMsgs me (dst.getD S) ops).map plain }) ∨
       ∃ x prev, mn = some x ∧ last.target.queryPool q api (dst.getD S) = .ok prev ∧
        r = { messages := (hopMsgs me (dst.getD S) ops ++
          [CosmosMsg.exec me (.assertMinimumReceive last.target prev x (dst.getD S)) []]).map plain }) := by
    intro d2 hv h
    obtain ⟨rfl, hv⟩ := Pair.optValidate_eq_ok.mp hv
    refine ⟨hv, ?_⟩
    simp only [executeSwapOperations, bind_eq_ok, okOr_eq_ok] at h
    obtain ⟨last, h1, _, h2, h⟩ := h
    refine ⟨last, h1, h2, ?_⟩
    cases mn with
    | none =>
      simp only [pure_eq_ok, Prod.mk.injEq] at h
      exact .inl ⟨rfl, h.2.symm⟩
    | some m =>
      simp only [bind_eq_ok, pure_eq_ok, Prod.mk.injEq] at h
      obtain ⟨prev, h3, _, rfl⟩ := h
      exact .inr ⟨m, prev, rfl, h3, rfl⟩
  cases hm with
  | direct =>
    simp only [execute, bind_eq_ok] at h
    obtain ⟨d2, hv, h⟩ := h
    exact key hv h
  | hook t x =>
    simp only [execute, receiveCw20, bind_eq_ok] at h
    obtain ⟨S', hS, d2, hv, h⟩ := h
    obtain ⟨rfl, _⟩ := validate_eq_ok.mp hS
    exact key hv h

end Router

/-- A message to a router. -/
theorem rou_exec {c : Chain} {adv : Adv} {n : Nat} {v v' : World} {fs : List Frame} {sender a : Addr} {target : Str}
    {m : ExecMsg} {funds : List Coin} {id : Option Nat} (hr : c.api.resolve target = .ok a) {adm : Option Addr}
    {s : Router.State} (ha : v.contracts a = some ⟨adm, .router s⟩)
    (h : StepI c adv n v (.msg sender ⟨.exec target m funds, id⟩) v' fs) :
    ∃ r, moveCoins v sender a funds = .ok v' ∧
      Router.execute c.api (querier c (adv.query n) v') a s sender m = .ok (s, r) ∧
      fs = frames a r ++ replyFrame sender id none := by
  generalize hf : (⟨.exec target m funds, id⟩ : SubMsg) = sm at h
  cases h with
  | router _ _ _ _ _ me w1 admin s1 s' r hme hmv hrr hc hx =>
    cases hf
    rw [hr] at hme
    cases hme
    rw [ha] at hc
    cases hc
    have := Router.execute_state hx
    subst this
    have e : w1.contracts a = some ⟨adm, .router s'⟩ := (congrFun (moveCoins_inv hmv).contracts a).trans ha
    rw [PairSite.setState_self_eq e]
    exact ⟨r, hmv, hx, rfl⟩
  | token _ _ _ _ _ me w1 admin s1 s' r hme hmv hrr hc hx | factory _ _ _ _ _ me w1 admin s1 s' r hme hmv hrr hc hx
  | pair _ _ _ _ _ me w1 admin s1 s' r hme hmv hrr hc hx | other _ _ _ _ _ me w1 admin ms hme hmv hc =>
    cases hf
    rw [hr] at hme
    cases hme
    rw [ha] at hc
    cases hc
  | bank | inst | migrate | admin => cases hf

/-- A router stays a router with the same storage, until it is migrated to foreign code. -/
theorem rou_step {c : Chain} {adv : Adv} {n : Nat} {w w' : World} {f : Frame} {fs : List Frame}
    (h : StepI c adv n w f w' fs) {a : Addr} {adm : Option Addr} {s : Router.State}
    (ha : w.contracts a = some ⟨adm, .router s⟩) :
    ∃ adm', w'.contracts a = some ⟨adm', .router s⟩ ∨ w'.contracts a = some ⟨adm', .other⟩ := by
  cases h with
  | bank _ _ _ _ _ _ _ _ hmv => exact ⟨_, .inl (by rw [(moveCoins_inv hmv).contracts]; exact ha)⟩
  | other _ _ _ _ _ _ _ _ _ _ hmv => exact ⟨_, .inl (by rw [(moveCoins_inv hmv).contracts]; exact ha)⟩
  | replyOther => exact ⟨_, .inl ha⟩
  | token _ _ _ _ _ me w1 admin s1 s' r _ hmv _ hc _ | factory _ _ _ _ _ me w1 admin s1 s' r _ hmv _ hc _
  | pair _ _ _ _ _ me w1 admin s1 s' r _ hmv _ hc _ =>
    have h1 : a ≠ me := by rintro rfl; rw [ha] at hc; cases hc
    exact ⟨_, .inl (((setContract_ne _ _ h1).trans (congrFun (moveCoins_inv hmv).contracts a)).trans ha)⟩
  | router _ _ _ _ _ me w1 admin s1 s' r _ hmv _ hc hx =>
    by_cases h1 : a = me
    · subst h1
      rw [ha] at hc
      cases hc
      have e := Router.execute_state hx
      subst e
      exact ⟨_, .inl (setContract_self _ _ _)⟩
    · exact ⟨_, .inl (((setContract_ne _ _ h1).trans (congrFun (moveCoins_inv hmv).contracts a)).trans ha)⟩
  | inst sender admin codeId m funds id kk adm2 w1 s1 fs1 hk hadm hnew hmv hx =>
    have h1 : a ≠ c.addrOf w.next := by rintro rfl; rw [ha] at hnew; cases hnew
    exact ⟨_, .inl (((setContract_ne _ _ h1).trans (congrFun (moveCoins_inv hmv).contracts a)).trans ha)⟩
  | migrate sender target codeId id k me s1 hk hres hc =>
    by_cases h1 : a = me
    · subst h1
      rw [ha] at hc
      cases hc
      cases k <;> first
        | exact ⟨_, .inl (setContract_self _ _ _)⟩
        | exact ⟨_, .inr (setContract_self _ _ _)⟩
    · exact ⟨_, .inl ((setContract_ne _ _ h1).trans ha)⟩
  | admin sender target new id adm2 me s1 hres hc _ =>
    by_cases h1 : a = me
    · subst h1
      rw [ha] at hc
      cases hc
      exact ⟨_, .inl (setContract_self _ _ _)⟩
    · exact ⟨_, .inl ((setContract_ne _ _ h1).trans ha)⟩
  | replyPair me id created admin s1 s' r hc hx | replyFactory me id created admin s1 s' r hc hx =>
    have h1 : a ≠ me := by rintro rfl; rw [ha] at hc; cases hc
    exact ⟨_, .inl ((setContract_ne _ _ h1).trans ha)⟩

theorem rou_run {c : Chain} {adv : Adv} {n n' : Nat} {w w' : World} {fs : List Frame} {a : Addr} {adm : Option Addr}
    {s : Router.State} (ha : w.contracts a = some ⟨adm, .router s⟩) (h : run c adv n w fs = .ok (n', w')) :
    ∃ adm', w'.contracts a = some ⟨adm', .router s⟩ ∨ w'.contracts a = some ⟨adm', .other⟩ :=
  run_induct (P := fun v _ => ∃ adm, v.contracts a = some ⟨adm, .router s⟩ ∨ v.contracts a = some ⟨adm, .other⟩)
    (fun _ _ _ _ _ _ hp hs => hp.elim fun _ hp => hp.elim (fun e => rou_step hs e)
      (fun e => (other_step hs e).imp fun _ h => .inr h.1)) ⟨_, .inl ha⟩ h

theorem other_run {c : Chain} {adv : Adv} {n n' : Nat} {w w' : World} {fs : List Frame} {a : Addr} {adm : Option Addr}
    (ha : w.contracts a = some ⟨adm, .other⟩) (h : run c adv n w fs = .ok (n', w')) :
    ∃ adm', w'.contracts a = some ⟨adm', .other⟩ :=
  run_induct (P := fun v _ => ∃ adm, v.contracts a = some ⟨adm, .other⟩)
    (fun _ _ _ _ _ _ hp hs => hp.elim fun _ hp => (other_step hs hp).imp fun _ h => h.1) ⟨_, ha⟩ h

/-- The pair information a factory gives. -/
theorem pairInfo_eq {c : Chain} {q : Querier} {v : World} {f : Addr} {as : AssetInfo × AssetInfo} {info : PairInfo}
    {adm : Option Addr} {fs : Factory.State} (hf : v.contracts f = some ⟨adm, .factory fs⟩)
    (hr : c.api.resolve f = .ok f) (h : (querier c q v).pairInfo f as = .ok info) :
    Factory.queryPair c.api fs as = .ok info := by
  simp only [querier, baseQuerier, lookState, bind_eq_ok, okOr_eq_ok, pure_eq_ok, hr, Except.ok.injEq] at h
  obtain ⟨_, ⟨_, rfl, _, h1, rfl⟩, h⟩ := h
  rw [hf] at h1
  cases h1
  simp only [chkPI, bind_eq_ok, require_eq_ok, pure_eq_ok] at h
  obtain ⟨_, h, _, _, rfl⟩ := h
  exact h

/-- The whole execution of one hop comes down to one message: the router sends its whole balance. -/
theorem hop_inv {c : Chain} {adv : Adv} {n n' : Nat} {v v' : World} {a S : Addr} {adm : Option Addr} {s : Router.State}
    {op : SwapOp} {dst : Option Str} (hr : c.api.resolve a = .ok a) (ha : v.contracts a = some ⟨adm, .router s⟩)
    (h : run c adv n v [.msg S (plain (.exec a (.executeSwapOperation op dst) []))] = .ok (n', v')) :
    S = a ∧ (∀ d, dst = some d → c.api.validate d = .ok d) ∧ ∃ m q f info x, n = m + 1 ∧
      c.api.human s.haloFactory = some f ∧
      (querier c q v).pairInfo f (op.offer, op.ask) = .ok info ∧
      op.offer.queryPool (querier c q v) c.api a = .ok x ∧
      run c adv m v [.msg a (plain (Router.assetIntoSwapMsg info.contractAddr ⟨op.offer, x⟩ none dst))] = .ok (n', v') := by
  obtain ⟨m, v1, fs1, rfl, hs, hrun⟩ := run_cons_inv h
  obtain ⟨r, hmv, hx, rfl⟩ := rou_exec hr ha (step_inv hs)
  rw [moveCoins_nil] at hmv
  subst hmv
  simp only [Router.execute, Router.executeSwapOperation, bind_eq_ok, require_eq_ok, pure_eq_ok, Prod.mk.injEq,
    humanize_eq_ok] at hx
  obtain ⟨d2, hv, _, h1, f, h2, info, h3, x, h4, _, rfl⟩ := hx
  obtain ⟨rfl, hv⟩ := Pair.optValidate_eq_ok.mp hv
  refine ⟨h1.symm, hv, m, _, f, info, x, rfl, h2, h3, ?_, ?_⟩
  · cases ho : op.offer with
    | native d => rw [ho] at h4; exact h4
    | token t => rw [ho] at h4; exact h4
  · simpa [frames, replyFrame, plain] using hrun

/-- A hop over a good pair: the router's whole balance goes in, the payout goes to the recipient. -/
theorem hop_exact {c : Chain} {adv : Adv} {n n' : Nat} {v v' : World} {a S f : Addr} {adm fadm : Option Addr}
    {s : Router.State} {fst : Factory.State} {op : SwapOp} {dst : Option Str} {k : PairSite}
    (hr : c.api.resolve a = .ok a) (ha : v.contracts a = some ⟨adm, .router s⟩)
    (hfa : c.api.human s.haloFactory = some f) (hf : v.contracts f = some ⟨fadm, .factory fst⟩)
    (hk : ∀ info, Factory.queryPair c.api fst (op.offer, op.ask) = .ok info → info.contractAddr = k.a)
    (hg : k.Good v) (hx : k.Ctx c) (hra : c.api.resolve k.a = .ok k.a) (hd : k.Dir op.offer op.ask)
    (h : run c adv n v [.msg S (plain (.exec a (.executeSwapOperation op dst) []))] = .ok (n', v')) :
    S = a ∧ (∃ t, op.offer = .token t) ∧ ∃ ret sp cm v1,
      Pair.computeSwap (held v op.offer k.a) (held v op.ask k.a) (held v op.offer a) = .ok (ret, sp, cm) ∧
      Xfer op.offer a k.a (held v op.offer a) v v1 ∧
      ((ret = 0 ∧ v' = v1) ∨ (ret ≠ 0 ∧ Xfer op.ask k.a (dst.getD a) ret v1 v')) := by
  obtain ⟨hS, hvd, m, q, f', info, x, rfl, h1, h2, h3, hrun⟩ := hop_inv hr ha h
  rw [hfa] at h1
  cases h1
  have hi := hk _ (pairInfo_eq hf (hx.law.resolve_human hfa) h2)
  have hxe := (queryPool_held (hg.honest hd.fst) h3).1
  subst hxe
  rw [hi] at hrun
  refine ⟨hS, ?_⟩
  have hak : a ≠ k.a := by rintro rfl; rw [hg.pair] at ha; cases ha
  cases ho : op.offer with
  | native d =>
    exfalso
    rw [ho] at hrun
    simp only [Router.assetIntoSwapMsg] at hrun
    obtain ⟨m2, v1, fs1, rfl, hs, _⟩ := run_cons_inv hrun
    obtain ⟨_, _, _, _, _, hex, _⟩ := hg.exec hra (step_inv hs)
    cases hex
  | token t =>
    rw [ho] at hrun hd
    simp only [Router.assetIntoSwapMsg] at hrun
    exact ⟨⟨t, rfl⟩, hg.swap_exact hx hra hr hak hd hrun⟩

/-! ## Routes -/

/-- `k` is the pair that a hop uses. -/
structure HopSite (c : Chain) (v : World) (fst : Factory.State) (op : SwapOp) (k : PairSite) : Prop where
  ctx : k.Ctx c
  good : k.Good v
  res : c.api.resolve k.a = .ok k.a
  hum : c.api.human k.s.contractAddr = some k.a
  dir : k.Dir op.offer op.ask
  look : ∀ info, Factory.queryPair c.api fst (op.offer, op.ask) = .ok info → info.contractAddr = k.a

theorem HopSite.keep {c : Chain} {v v' : World} {fst : Factory.State} {op : SwapOp} {k : PairSite}
    (h : HopSite c v fst op k) (hk : TokKeep v v') : HopSite c v' fst op k :=
  ⟨h.ctx, h.good.keep hk, h.res, h.hum, h.dir, h.look⟩

/-- The amounts along a route, at the reserves of `v`. -/
def Quote (v : World) : List SwapOp → List PairSite → Nat → Nat → Prop
  | [], [], x, y => x = y
  | op :: ops, k :: ks, x, y => ∃ r s cm, Pair.computeSwap (held v op.offer k.a) (held v op.ask k.a) x = .ok (r, s, cm) ∧
      Quote v ops ks r y
  | _, _, _, _ => False

theorem Quote.congr {v v' : World} : ∀ {ops : List SwapOp} {ks : List PairSite} {x y : Nat}, Quote v ops ks x y →
    (∀ k ∈ ks, ∀ i, held v' i k.a = held v i k.a) → Quote v' ops ks x y := by
  intro ops
  induction ops with
  | nil => intro ks x y h hk; cases ks with | nil => exact h | cons => cases h
  | cons op ops ih =>
    intro ks x y h hk
    cases ks with
    | nil => cases h
    | cons k ks =>
      obtain ⟨r, s, cm, h1, h2⟩ := h
      refine ⟨r, s, cm, ?_, ih h2 fun k' hk' => hk k' (.tail _ hk')⟩
      rw [hk k (.head _), hk k (.head _)]
      exact h1

/-- What a simulated route computes. -/
theorem Quote.of_sim {c : Chain} {q : Querier} {v : World} {f : Addr} {fadm : Option Addr} {fst : Factory.State}
    (hf : v.contracts f = some ⟨fadm, .factory fst⟩) (hfr : c.api.resolve f = .ok f) :
    ∀ {ops : List SwapOp} {ks : List PairSite} {x y : Nat}, List.Forall₂ (HopSite c v fst) ops ks →
    Router.simulateLoop (querier c q v) f ops x = .ok y → Quote v ops ks x y := by
  intro ops
  induction ops with
  | nil =>
    intro ks x y hk h
    cases hk
    simp only [Router.simulateLoop, Except.ok.injEq] at h
    exact h
  | cons op ops ih =>
    intro ks x y hk h
    cases hk with
    | cons h1 h2 =>
      rename_i k ks
      simp only [Router.simulateLoop, bind_eq_ok] at h
      obtain ⟨info, hi, resp, hs, h⟩ := h
      have he := h1.look _ (pairInfo_eq hf hfr hi)
      rw [he] at hs
      simp only [querier, lookState, bind_eq_ok, okOr_eq_ok, pure_eq_ok, h1.res, Except.ok.injEq] at hs
      obtain ⟨_, ⟨_, rfl, _, h3, rfl⟩, hs⟩ := hs
      rw [h1.good.pair] at h3
      cases h3
      simp only [chkSim, bind_eq_ok, require_eq_ok, pure_eq_ok] at hs
      obtain ⟨_, hs, _, _, rfl⟩ := hs
      exact ⟨_, _, _, h1.good.simulated h1.ctx h1.hum h1.dir hs, ih h2 h⟩

theorem forall₂_mem_right {α β : Type} {R : α → β → Prop} {l : List α} {l' : List β} (h : List.Forall₂ R l l') {b : β}
    (hb : b ∈ l') : ∃ a ∈ l, R a b := by
  induction h with
  | nil => cases hb
  | cons h1 _ ih =>
    rcases List.mem_cons.mp hb with rfl | hb
    · exact ⟨_, .head _, h1⟩
    · obtain ⟨a, ha, hr⟩ := ih hb
      exact ⟨a, .tail _ ha, hr⟩

/-- Each hop asks for what the next one offers. -/
def Connected (ops : List SwapOp) : Prop := ops.IsChain fun a b => a.ask = b.offer

theorem route_run {c : Chain} {adv : Adv} {a f rcv : Addr} {adm fadm : Option Addr} {s : Router.State}
    {fst : Factory.State} (hr : c.api.resolve a = .ok a) (hfa : c.api.human s.haloFactory = some f) (hra : rcv ≠ a) :
    ∀ {ops : List SwapOp} {ks : List PairSite} {n n' : Nat} {v v' : World} {x y : Nat} {op0 last : SwapOp},
    v.contracts a = some ⟨adm, .router s⟩ → v.contracts f = some ⟨fadm, .factory fst⟩ →
    List.Forall₂ (HopSite c v fst) ops ks → (ks.map PairSite.a).Nodup → Connected ops →
    rcv ∉ ks.map PairSite.a → ops.head? = some op0 → ops.getLast? = some last → held v op0.offer a = x →
    (∀ op ∈ ops, op.offer ≠ op0.offer → held v op.offer a = 0) → Quote v ops ks x y →
    run c adv n v ((Router.hopMsgs a rcv ops).map fun m => .msg a (plain m)) = .ok (n', v') →
    TokKeep v v' ∧ held v' last.ask rcv = held v last.ask rcv + y ∧
      (∀ i, i ≠ last.ask → held v' i rcv = held v i rcv) := by
  intro ops
  induction ops with
  | nil => intro _ _ _ _ _ _ _ _ _ _ _ _ _ _ _ h; cases h
  | cons op ops ih =>
    intro ks n n' v v' x y op0 last ha hf hsite hnd hcon hnot h0 hl hx hz hq hrun
    simp only [List.head?_cons, Option.some.injEq] at h0
    subst h0
    cases hsite with
    | cons h1 h2 =>
      rename_i k ks
      obtain ⟨r, sp, cm, hc1, hq2⟩ := hq
      have hrk : rcv ≠ k.a := fun e => hnot (by simp [e])
      have hak : a ≠ k.a := by rintro rfl; rw [h1.good.pair] at ha; cases ha
      cases ops with
      | nil =>
        cases h2
        simp only [List.getLast?_singleton, Option.some.injEq] at hl
        subst hl
        simp only [Router.hopMsgs, List.map_cons, List.map_nil] at hrun
        obtain ⟨_, _, ret, sp', cm', v1, hc2, hx1, hx2⟩ := hop_exact hr ha hfa hf h1.look h1.good h1.ctx h1.res h1.dir hrun
        rw [hx, hc1] at hc2
        cases hc2
        cases hq2
        have e1 : ∀ i, held v1 i rcv = held v i rcv := hx1.outside hra hrk
        rcases hx2 with ⟨rfl, rfl⟩ | ⟨_, hx2⟩
        · exact ⟨hx1.keep, e1 _, fun i _ => e1 i⟩
        · refine ⟨hx1.keep.trans hx2.keep, ?_, fun i hi => ?_⟩
          · have := (hx2.bal (Ne.symm hrk)).2
            simp only [Option.getD_some] at this
            rw [this, e1]
          · rw [hx2.other i hi, e1]
      | cons op2 ops =>
        simp only [Router.hopMsgs, List.map_cons] at hrun
        rw [← List.singleton_append, run_append] at hrun
        obtain ⟨m, u, hrun1, hrun2⟩ := hrun
        obtain ⟨_, _, ret, sp', cm', v1, hc2, hx1, hx2⟩ := hop_exact hr ha hfa hf h1.look h1.good h1.ctx h1.res h1.dir hrun1
        rw [hx, hc1] at hc2
        cases hc2
        have hcc : op.ask = op2.offer := (List.isChain_cons_cons.mp hcon).1
        have hne : op.offer ≠ op.ask := h1.dir.ne h1.ctx
        -- what changed
        have hkeep : TokKeep v u := by
          rcases hx2 with ⟨_, rfl⟩ | ⟨_, hx2⟩
          exacts [hx1.keep, hx1.keep.trans hx2.keep]
        have hout : ∀ b, b ≠ a → b ≠ k.a → ∀ i, held u i b = held v i b := by
          intro b hb1 hb2 i
          rcases hx2 with ⟨_, rfl⟩ | ⟨_, hx2⟩
          · exact hx1.outside hb1 hb2 i
          · exact (hx2.outside hb2 hb1 i).trans (hx1.outside hb1 hb2 i)
        have hask : held u op.ask a = held v op.ask a + r := by
          rcases hx2 with ⟨rfl, rfl⟩ | ⟨_, hx2⟩
          · exact hx1.other _ (Ne.symm hne) a
          · have := (hx2.bal (Ne.symm hak)).2
            simp only [Option.getD_none] at this
            rw [this, hx1.other _ (Ne.symm hne) a]
        have hoff : held u op.offer a = 0 := by
          have h3 : held v1 op.offer a = 0 := by rw [(hx1.bal hak).1]; omega
          rcases hx2 with ⟨_, rfl⟩ | ⟨_, hx2⟩
          · exact h3
          · rw [hx2.other _ hne, h3]
        have hoth : ∀ i, i ≠ op.offer → i ≠ op.ask → held u i a = held v i a := by
          intro i hi1 hi2
          rcases hx2 with ⟨_, rfl⟩ | ⟨_, hx2⟩
          · exact hx1.other i hi1 a
          · rw [hx2.other i hi2, hx1.other i hi1]
        have ha' := hkeep.contracts ha (by intro st h; cases h)
        have hf' := hkeep.contracts hf (by intro st h; cases h)
        have hnd2 : k.a ∉ ks.map PairSite.a ∧ (ks.map PairSite.a).Nodup := by simpa using hnd
        have hks : ∀ k' ∈ ks, ∀ i, held u i k'.a = held v i k'.a := by
          intro k' hk' i
          refine hout _ ?_ ?_ i
          · obtain ⟨op', _, hs'⟩ := forall₂_mem_right h2 hk'
            rintro e
            have := hs'.good.pair
            rw [e, ha] at this
            cases this
          · rintro e
            exact hnd2.1 (e ▸ List.mem_map_of_mem hk')
        have hask0 : held v op.ask a = 0 := by
          refine hcc ▸ hz op2 (by simp) ?_
          rw [← hcc]; exact Ne.symm hne
        have key := ih (ks := ks) (v := u) (x := r) (y := y) (op0 := op2) (last := last) ha' hf'
          (h2.imp fun _ _ hh => hh.keep hkeep) hnd2.2 (List.isChain_cons_cons.mp hcon).2
          (fun hm => hnot (by simp only [List.map_cons, List.mem_cons]; exact .inr hm)) rfl (by simpa using hl)
          (by rw [← hcc, hask, hask0, Nat.zero_add])
          (by
            intro op' hop' hne'
            by_cases hoo : op'.offer = op.offer
            · rw [hoo]; exact hoff
            · rw [hoth _ hoo (hcc ▸ hne')]
              exact hz op' (.tail _ hop') hoo)
          (hq2.congr hks) hrun2
        refine ⟨hkeep.trans key.1, ?_, fun i hi => ?_⟩
        · rw [key.2.1, hout rcv hra hrk]
        · rw [key.2.2 i hi, hout rcv hra hrk]

end Halo
