import Verif.Lemmas.QueryCodecL2
/-! # What contracts compute when they ask with bytes -/

namespace Halo
open _root_.Halo.Spec
namespace QueryCodec

/-- The same answers, but for the simulations. -/
structure SameBut (q q' : Querier) : Prop where
  balance : q.balance = q'.balance
  tokenBalance : q.tokenBalance = q'.tokenBalance
  tokenInfo : q.tokenInfo = q'.tokenInfo
  nativeDecimals : q.nativeDecimals = q'.nativeDecimals
  pairInfo : q.pairInfo = q'.pairInfo
  pairInfoFromPair : q.pairInfoFromPair = q'.pairInfoFromPair

theorem SameBut.eq {q q' : Querier} (h : SameBut q q') : q = { q' with simulate := q.simulate, reverseSimulate := q.reverseSimulate } := by
  obtain ⟨h1, h2, h3, h4, h5, h6⟩ := h
  cases q; cases q'
  cases h1; cases h2; cases h3; cases h4; cases h5; cases h6
  rfl

theorem SameBut.pair_execute {q q' : Querier} (h : SameBut q q') (api : Api) : Pair.execute api q = Pair.execute api q' := by
  rw [h.eq]; rfl

theorem SameBut.factory_execute {q q' : Querier} (h : SameBut q q') (api : Api) : Factory.execute api q = Factory.execute api q' := by
  rw [h.eq]; rfl

theorem SameBut.factory_reply {q q' : Querier} (h : SameBut q q') (api : Api) : Factory.reply api q = Factory.reply api q' := by
  rw [h.eq]; rfl

theorem SameBut.router_execute {q q' : Querier} (h : SameBut q q') (api : Api) : Router.execute api q = Router.execute api q' := by
  rw [h.eq]; rfl

theorem SameBut.simulation {q q' : Querier} (h : SameBut q q') (api : Api) : Pair.querySimulation api q = Pair.querySimulation api q' := by
  rw [h.eq]; rfl

theorem SameBut.reverseSimulation {q q' : Querier} (h : SameBut q q') (api : Api) :
    Pair.queryReverseSimulation api q = Pair.queryReverseSimulation api q' := by
  rw [h.eq]; rfl

theorem SameBut.pool {q q' : Querier} (h : SameBut q q') (api : Api) : Pair.queryPool api q = Pair.queryPool api q' := by
  rw [h.eq]; rfl

variable (c : Chain) (foreign : Str → Bytes → R Bytes) (w : World)

theorem wire_same (n : Nat) : SameBut (wireQuerier c foreign w n) (querier c (heardQuerier foreign) w) where
  balance := rfl
  tokenBalance := wire_tokenBalance c foreign w n
  tokenInfo := wire_tokenInfo c foreign w n
  nativeDecimals := wire_nativeDecimals c foreign w n
  pairInfo := wire_pairInfo c foreign w n
  pairInfoFromPair := wire_pairInfoFromPair c foreign w n

theorem base_same : SameBut (querier c (heardQuerier foreign) w) (baseQuerier c (heardQuerier foreign) w) :=
  ⟨rfl, rfl, rfl, rfl, rfl, rfl⟩

theorem SameBut.trans {q q' q'' : Querier} (h : SameBut q q') (h' : SameBut q' q'') : SameBut q q'' :=
  ⟨h.1.trans h'.1, h.2.trans h'.2, h.3.trans h'.3, h.4.trans h'.4, h.5.trans h'.5, h.6.trans h'.6⟩

section
variable {c : Chain} {foreign : Str → Bytes → R Bytes} {w : World} {a : Str}

theorem smart_pair {s : Pair.State} (h : lookState c w a = .ok (.pair s)) (n : Nat) :
    smart c foreign w (n + 1) a = answerBytes .pair (Pair.answer c.api (wireQuerier c foreign w n) s) := by
  funext b; rw [smart_unfold, h]; rfl
theorem smart_router {s : Router.State} (h : lookState c w a = .ok (.router s)) (n : Nat) :
    smart c foreign w (n + 1) a = answerBytes .router (Router.answer c.api (wireQuerier c foreign w n) s) := by
  funext b; rw [smart_unfold, h]; rfl
theorem smart_token {s : TokenState} (h : lookState c w a = .ok (.token s)) (n : Nat) :
    smart c foreign w n a = answerBytes .token (Token.answer c.api s) := by
  funext b; rw [smart_unfold, h]; rfl
theorem smart_factory {s : Factory.State} (h : lookState c w a = .ok (.factory s)) (n : Nat) :
    smart c foreign w n a = answerBytes .factory (Factory.answer c.api s) := by
  funext b; rw [smart_unfold, h]; rfl
theorem smart_other (h : lookState c w a = .ok .other) (n : Nat) : smart c foreign w n a = foreign a := by
  funext b; rw [smart_unfold, h]; rfl
theorem smart_none {e : Err} (h : lookState c w a = .error e) (n : Nat) (b : Bytes) : smart c foreign w n a b = .error e := by
  rw [smart_unfold, h]; rfl
end

theorem typed_simulate (p : Str) (a : Asset) : (querier c (heardQuerier foreign) w).simulate p a = (lookState c w p >>= fun s => match s with
    | .pair s => chkSim (Pair.querySimulation c.api (baseQuerier c (heardQuerier foreign) w) s a)
    | .other => chkSim ((heardQuerier foreign).simulate p a)
    | _ => .error .parse) := rfl

theorem typed_reverse (p : Str) (a : Asset) :
    (querier c (heardQuerier foreign) w).reverseSimulate p a = (lookState c w p >>= fun s => match s with
    | .pair s => chkSim (Pair.queryReverseSimulation c.api (baseQuerier c (heardQuerier foreign) w) s a)
    | .other => chkSim ((heardQuerier foreign).reverseSimulate p a)
    | _ => .error .parse) := rfl

theorem answer_simulation (q : Querier) (s : Pair.State) (a : Asset) : Pair.answer c.api q s (.simulation a) =
    (Pair.querySimulation c.api q s a >>= fun r => pure (simJ (asc "return_amount") r)) := rfl
theorem answer_reverse (q : Querier) (s : Pair.State) (a : Asset) : Pair.answer c.api q s (.reverseSimulation a) =
    (Pair.queryReverseSimulation c.api q s a >>= fun r => pure (simJ (asc "offer_amount") r)) := rfl

theorem chkSim_ok (r : SimResp) {f : Str} (h : asSim f (simJ f r) = if r.amount < B128 ∧ r.spread < B128 ∧ r.commission < B128 then some r else none) :
    okOr (asSim f (simJ f r)) .parse = chkSim (.ok r) := okOr_when h

theorem chkSim_foreign {f : Str} {sm : Str → Bytes → R Bytes} {p : Str} {m : QueryMsg} : ask sm p m (asSim f) = chkSim (ask sm p m (asSim f)) :=
  (recheck _ fun x h => by obtain ⟨j, hj⟩ := ask_inv h; exact asSim_lt hj).symm

theorem wire_simulate (n : Nat) (p : Str) (a : Asset) (ha : a.amount < B128) :
    (wireQuerier c foreign w (n + 1)).simulate p a = (querier c (heardQuerier foreign) w).simulate p a := by
  show ask (smart c foreign w (n + 1)) p (.simulation a) (asSim (asc "return_amount")) = _
  rw [typed_simulate]
  unfold ask
  cases h : lookState c w p with
  | error e => rw [smart_none h]; rfl
  | ok s =>
    cases s with
    | pair s =>
      rw [smart_pair h, ask_ok (k := .pair) (m := .simulation a) trivial ((fits128 rfl).mpr ha), answer_simulation,
        ((wire_same c foreign w n).trans (base_same c foreign w)).simulation c.api]
      show _ = chkSim (Pair.querySimulation c.api (baseQuerier c (heardQuerier foreign) w) s a)
      generalize Pair.querySimulation c.api (baseQuerier c (heardQuerier foreign) w) s a = r
      cases r with
      | error e => rfl
      | ok r => exact chkSim_ok r (asSimFwd_J r)
    | factory s => rw [smart_factory h, ask_refused (k := .factory) (m := .simulation a) (fun h => h.1)]; rfl
    | token s => rw [smart_token h, ask_refused (k := .token) (m := .simulation a) (fun h => h.1)]; rfl
    | router s => rw [smart_router h, ask_refused (k := .router) (m := .simulation a) (fun h => h.1)]; rfl
    | other => rw [smart_other h]; exact chkSim_foreign

theorem wire_reverseSimulate (n : Nat) (p : Str) (a : Asset) (ha : a.amount < B128) :
    (wireQuerier c foreign w (n + 1)).reverseSimulate p a = (querier c (heardQuerier foreign) w).reverseSimulate p a := by
  show ask (smart c foreign w (n + 1)) p (.reverseSimulation a) (asSim (asc "offer_amount")) = _
  rw [typed_reverse]
  unfold ask
  cases h : lookState c w p with
  | error e => rw [smart_none h]; rfl
  | ok s =>
    cases s with
    | pair s =>
      rw [smart_pair h, ask_ok (k := .pair) (m := .reverseSimulation a) trivial ((fits128 rfl).mpr ha), answer_reverse,
        ((wire_same c foreign w n).trans (base_same c foreign w)).reverseSimulation c.api]
      show _ = chkSim (Pair.queryReverseSimulation c.api (baseQuerier c (heardQuerier foreign) w) s a)
      generalize Pair.queryReverseSimulation c.api (baseQuerier c (heardQuerier foreign) w) s a = r
      cases r with
      | error e => rfl
      | ok r => exact chkSim_ok r (asSimRev_J r)
    | factory s => rw [smart_factory h, ask_refused (k := .factory) (m := .reverseSimulation a) (fun h => h.1)]; rfl
    | token s => rw [smart_token h, ask_refused (k := .token) (m := .reverseSimulation a) (fun h => h.1)]; rfl
    | router s => rw [smart_router h, ask_refused (k := .router) (m := .reverseSimulation a) (fun h => h.1)]; rfl
    | other => rw [smart_other h]; exact chkSim_foreign

theorem chkSim_lt {r : R SimResp} {x : SimResp} (h : chkSim r = .ok x) : x.amount < B128 := by
  unfold chkSim at h
  simp only [bind_eq_ok, require_eq_ok, pure_eq_ok] at h
  obtain ⟨_, _, _, h, rfl⟩ := h
  exact h.1

theorem simulate_lt (p : Str) (a : Asset) {r : SimResp} (h : (querier c (heardQuerier foreign) w).simulate p a = .ok r) :
    r.amount < B128 := by
  rw [typed_simulate] at h
  obtain ⟨s, _, h⟩ := bind_eq_ok.mp h
  cases s with
  | pair s => exact chkSim_lt h
  | other => exact chkSim_lt h
  | _ => cases h

theorem reverse_lt (p : Str) (a : Asset) {r : SimResp} (h : (querier c (heardQuerier foreign) w).reverseSimulate p a = .ok r) :
    r.amount < B128 := by
  rw [typed_reverse] at h
  obtain ⟨s, _, h⟩ := bind_eq_ok.mp h
  cases s with
  | pair s => exact chkSim_lt h
  | other => exact chkSim_lt h
  | _ => cases h

/-- Simulating a route with bytes. -/
theorem wire_simulateLoop (n : Nat) (f : Addr) (ops : List SwapOp) (a : Nat) (ha : a < B128) :
    Router.simulateLoop (wireQuerier c foreign w (n + 1)) f ops a = Router.simulateLoop (querier c (heardQuerier foreign) w) f ops a := by
  induction ops generalizing a with
  | nil => rfl
  | cons op t ih =>
    unfold Router.simulateLoop
    rw [wire_pairInfo]
    cases (querier c (heardQuerier foreign) w).pairInfo f (op.offer, op.ask) with
    | error e => rfl
    | ok p =>
      show ((wireQuerier c foreign w (n + 1)).simulate p.contractAddr _ >>= _) = ((querier c (heardQuerier foreign) w).simulate p.contractAddr _ >>= _)
      rw [wire_simulate c foreign w n _ _ ha]
      cases hr : (querier c (heardQuerier foreign) w).simulate p.contractAddr { info := op.offer, amount := a } with
      | error e => rfl
      | ok r => exact ih r.amount (simulate_lt c foreign w _ _ hr)

theorem loop_lt (f : Addr) (ops : List SwapOp) (a : Nat) (ha : a < B128) {x : Nat}
    (h : Router.simulateLoop (querier c (heardQuerier foreign) w) f ops a = .ok x) : x < B128 := by
  induction ops generalizing a with
  | nil => cases h; exact ha
  | cons op t ih =>
    unfold Router.simulateLoop at h
    obtain ⟨p, _, h⟩ := bind_eq_ok.mp h
    obtain ⟨r, hr, h⟩ := bind_eq_ok.mp h
    exact ih _ (simulate_lt c foreign w _ _ hr) h

theorem wire_reverseReturn (n : Nat) (f : Addr) (op : SwapOp) (a : Nat) (ha : a < B128) :
    Router.reverseSimulateReturnAmount (wireQuerier c foreign w (n + 1)) f a op =
      Router.reverseSimulateReturnAmount (querier c (heardQuerier foreign) w) f a op := by
  unfold Router.reverseSimulateReturnAmount
  rw [wire_pairInfo]
  cases (querier c (heardQuerier foreign) w).pairInfo f (op.offer, op.ask) with
  | error e => rfl
  | ok p =>
    show ((wireQuerier c foreign w (n + 1)).reverseSimulate p.contractAddr _ >>= _) =
      ((querier c (heardQuerier foreign) w).reverseSimulate p.contractAddr _ >>= _)
    rw [wire_reverseSimulate c foreign w n _ _ ha]

theorem reverseReturn_lt (f : Addr) (op : SwapOp) (a : Nat) {x : Nat}
    (h : Router.reverseSimulateReturnAmount (querier c (heardQuerier foreign) w) f a op = .ok x) : x < B128 := by
  unfold Router.reverseSimulateReturnAmount at h
  obtain ⟨p, _, h⟩ := bind_eq_ok.mp h
  obtain ⟨r, hr, h⟩ := bind_eq_ok.mp h
  cases h
  exact reverse_lt c foreign w _ _ hr

theorem wire_reverseLoop (n : Nat) (st : Router.State) (ops : List SwapOp) (a : Nat) (ha : a < B128) :
    Router.reverseSimulateLoop c.api (wireQuerier c foreign w (n + 1)) st ops a =
      Router.reverseSimulateLoop c.api (querier c (heardQuerier foreign) w) st ops a := by
  induction ops generalizing a with
  | nil => rfl
  | cons op t ih =>
    unfold Router.reverseSimulateLoop
    cases c.api.humanize st.haloFactory with
    | error e => rfl
    | ok f =>
      show ((match Router.reverseSimulateReturnAmount (wireQuerier c foreign w (n + 1)) f a op with
        | .ok a => .ok a
        | .error _ => .error (.panic .unwrap) : R Nat) >>= _) = ((match Router.reverseSimulateReturnAmount (querier c (heardQuerier foreign) w) f a op with
        | .ok a => .ok a
        | .error _ => .error (.panic .unwrap) : R Nat) >>= _)
      rw [wire_reverseReturn c foreign w n f op a ha]
      cases hr : Router.reverseSimulateReturnAmount (querier c (heardQuerier foreign) w) f a op with
      | error e => rfl
      | ok x => exact ih x (reverseReturn_lt c foreign w f op a hr)

theorem reverseLoop_lt (st : Router.State) (ops : List SwapOp) (a : Nat) (ha : a < B128) {x : Nat}
    (h : Router.reverseSimulateLoop c.api (querier c (heardQuerier foreign) w) st ops a = .ok x) : x < B128 := by
  induction ops generalizing a with
  | nil => cases h; exact ha
  | cons op t ih =>
    unfold Router.reverseSimulateLoop at h
    obtain ⟨f, _, h⟩ := bind_eq_ok.mp h
    obtain ⟨r, hr, h⟩ := bind_eq_ok.mp h
    refine ih r ?_ h
    cases hq : Router.reverseSimulateReturnAmount (querier c (heardQuerier foreign) w) f a op with
    | error e => rw [hq] at hr; cases hr
    | ok y => rw [hq] at hr; cases hr; exact reverseReturn_lt c foreign w f op a hq

end QueryCodec
end Halo
