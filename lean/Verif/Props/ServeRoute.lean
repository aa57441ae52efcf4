import Verif.Props.Serve
import Verif.Props.Route
/-! # Contracts trade over routes as users do (C122)

As C121, for the router: a contract that sends tokens to the router in the middle of a transaction is served as a user with a transaction of
its own (C36, C60) is, at the states of the pairs at that moment. -/

namespace Halo
open _root_.Halo.Spec

/-- The setting of C122. At a moment of an attempt at a transaction, in the state `v`, somebody `S` acts who is neither the router nor a
contract of the pairs of the route. As in C60 the pairs are different, their assets are well-behaved, each hop offers what the previous one
bought, the pairs are those the router's factory names (at that moment), the router holds nothing of the assets to be sold, and the receiver
is neither the router nor one of the pairs. -/
structure ActsOnRoute (c : Chain) (w v : World) (S rou f t : Addr) (adm fadm : Option Addr) (s : Router.State)
    (fs : Factory.State) (ops : List SwapOp) (ks : List PairSite) (first last : SwapOp) (dst : Option Str) : Prop where
  acts : ∀ k ∈ ks, Acts c w k S v
  ne_rou : S ≠ rou
  router : v.contracts rou = some ⟨adm, .router s⟩
  names : c.api.human s.haloFactory = some f
  factory : v.contracts f = some ⟨fadm, .factory fs⟩
  pairs : List.Forall₂ (fun op k => k.Sound c w ∧ k.Dir op.offer op.ask ∧
      ∀ info, Factory.queryPair c.api fs (op.offer, op.ask) = .ok info → info.contractAddr = k.a) ops ks
  nodup : (ks.map PairSite.a).Nodup
  con : ops.IsChain fun a b => a.ask = b.offer
  head : ops.head? = some first
  tail : ops.getLast? = some last
  offer : first.offer = .token t
  empty : ∀ op ∈ ops, held v op.offer rou = 0
  rcv_rou : dst.getD S ≠ rou
  rcv_pairs : ∀ k ∈ ks, dst.getD S ≠ k.a

theorem Acts.sane {c : Chain} {w : World} (hw : Reachable c w) {k : PairSite} {S : Addr} {v : World} (h : Acts c w k S v) :
    ∃ fs, Sane c v fs := by
  obtain ⟨⟨u, m, adv, gas, f, hu, hmem, rfl⟩, _⟩ := h
  obtain ⟨rest, hs⟩ := trace_all (P := fun v fs => Sane c v fs) (fun _ _ _ _ _ _ hp hs => hp.step hs) (hw.sane.start hu m) _ hmem
  exact ⟨_, hs⟩

private theorem sites_at {c : Chain} (hc : c.Lawful) {w v : World} (hw : Reachable c w) {S : Addr} {fs : Factory.State} {ops : List SwapOp}
    {ks : List PairSite} (h : List.Forall₂ (fun op k => k.Sound c w ∧ k.Dir op.offer op.ask ∧
      ∀ info, Factory.queryPair c.api fs (op.offer, op.ask) = .ok info → info.contractAddr = k.a) ops ks)
    (ha : ∀ k ∈ ks, Acts c w k S v) (hb : ∀ k ∈ ks, ¬ k.Broken v) : List.Forall₂ (HopSite c v fs) ops ks := by
  induction h with
  | nil => exact .nil
  | cons h1 _ ih =>
    refine .cons ?_ (ih (fun k hk => ha k (.tail _ hk)) (fun k hk => hb k (.tail _ hk)))
    obtain ⟨hg, _, _⟩ := ((ha _ (.head _)).facts hc hw h1.1).resolve_left (hb _ (.head _))
    exact ⟨h1.1.ctx hc, hg, (addr_facts hc hw h1.1.pair).1, human_self hc hw h1.1.pair, h1.2.1, h1.2.2⟩

private theorem ActsOnRoute.at_ {c : Chain} (hc : c.Lawful) {w v : World} (hw : Reachable c w) {S rou f t : Addr} {adm fadm : Option Addr}
    {s : Router.State} {fs : Factory.State} {ops : List SwapOp} {ks : List PairSite} {first last : SwapOp} {dst : Option Str}
    (h : ActsOnRoute c w v S rou f t adm fadm s fs ops ks first last dst) (hb : ∀ k ∈ ks, ¬ k.Broken v) :
    RouteAt c v S rou f t adm fadm s fs ops ks first last dst := by
  obtain ⟨k, hk, hks⟩ : ∃ k ∈ ks, k.Sound c w := by
    have hp := h.pairs
    have hh := h.head
    cases hp with
    | nil => cases hh
    | cons h1 _ => exact ⟨_, .head _, h1.1⟩
  obtain ⟨_, ht, hS⟩ := ((h.acts k hk).facts hc hw hks).resolve_left (hb k hk)
  obtain ⟨_, hsane⟩ := (h.acts k hk).sane hw
  have hres : c.api.resolve rou = .ok rou := by
    obtain ⟨n, _, e⟩ := hsane.at_addr _ _ h.router
    obtain ⟨b, h1, h2⟩ := hc.addr_valid n
    exact resolve_eq_ok.mpr ⟨b, by rw [e]; exact h1, by rw [e]; exact h2⟩
  exact ⟨hc, ht, hS, h.ne_rou, fun k hk => (h.acts k hk).pair, hres, h.router, h.names, h.factory, sites_at hc hw h.pairs h.acts hb,
    h.nodup, h.con, h.head, h.tail, h.offer, h.empty, h.rcv_rou, h.rcv_pairs⟩

/-- **C122.** A route goes through exactly if the offer is there, the receiver an address, the route quoted hop by hop at that moment, and
the minimum reached. -/
theorem C122_route_iff {c : Chain} (hc : c.Lawful) {w v : World} (hw : Reachable c w) {S rou f t : Addr} {adm fadm : Option Addr}
    {s : Router.State} {fs : Factory.State} {ops : List SwapOp} {ks : List PairSite} {first last : SwapOp} {dst : Option Str}
    (h : ActsOnRoute c w v S rou f t adm fadm s fs ops ks first last dst) (hfit : ∀ k ∈ ks, Fits k v) (mn : Option Nat)
    (hbig : ∀ m d, mn = some m → last.ask = .native d → ∀ k ∈ ks, v.bal d (dst.getD S) + v.bal d k.a < 2 ^ 128)
    (x : Nat) (adv : Adv) (q : Querier) :
    (∃ k ∈ ks, k.Broken v) ∨
    ((∃ n n' v', run c adv n v [.msg S (plain (.exec t (.send rou x (.executeSwapOperations ops mn dst)) []))] = .ok (n', v')) ↔
      0 < x ∧ x ≤ held v (.token t) S ∧ (∀ d, dst = some d → c.api.validate d = .ok d) ∧
      ∃ y, HopByHop (querier c q v) f ops ks x y ∧ ∀ m, mn = some m → m ≤ y) := by
  by_cases hb : ∃ k ∈ ks, k.Broken v
  · exact .inl hb
  · exact .inr ((h.at_ hc hw (fun k hk hbk => hb ⟨k, hk, hbk⟩)).iff hfit mn hbig x adv q)

/-- **C122.** If it goes through, the receiver gets exactly what the router quotes at that moment, which is no less than the minimum; the
sender pays the offer; the router keeps nothing; and no account other than these and the pairs is concerned. -/
theorem C122_route_pays {c : Chain} (hc : c.Lawful) {w v v' : World} (hw : Reachable c w) {S rou f t : Addr} {adm fadm : Option Addr}
    {s : Router.State} {fs : Factory.State} {ops : List SwapOp} {ks : List PairSite} {first last : SwapOp} {dst : Option Str}
    (h : ActsOnRoute c w v S rou f t adm fadm s fs ops ks first last dst) {q : Querier} {x y : Nat}
    (hq : Router.simulateSwapOperations c.api (querier c q v) s x ops = .ok y) {mn : Option Nat} {adv : Adv} {n n' : Nat}
    (hr : run c adv n v [.msg S (plain (.exec t (.send rou x (.executeSwapOperations ops mn dst)) []))] = .ok (n', v')) :
    (∃ k ∈ ks, k.Broken v) ∨ (x ≤ held v (.token t) S ∧ (∀ m, mn = some m → m ≤ y) ∧
    (∀ i, held v' i (dst.getD S) =
      held v i (dst.getD S) - (if dst.getD S = S ∧ i = .token t then x else 0) + (if i = last.ask then y else 0)) ∧
    (∀ op ∈ ops, held v' op.offer rou = 0) ∧ (∀ i, (∀ op ∈ ops, i ≠ op.offer) → held v' i rou = held v i rou) ∧
    (S ≠ dst.getD S → ∀ i, held v' i S = held v i S - if i = .token t then x else 0) ∧
    ∀ b, b ≠ S → b ≠ rou → b ≠ dst.getD S → b ∉ ks.map PairSite.a → ∀ i, held v' i b = held v i b) := by
  by_cases hb : ∃ k ∈ ks, k.Broken v
  · exact .inl hb
  · exact .inr ((h.at_ hc hw (fun k hk hbk => hb ⟨k, hk, hbk⟩)).done hq hr)

/-! ## Example: the foreign contract of C121, after its swap, trades A over B for C -/

namespace Demo

private theorem hop_reachable : Reachable chain lendWorld := filledAX_reachable.later (later_runs (show runs lendSetup filledAX = .ok lendWorld from
  worldOf_eq (by decide +kernel)))
private theorem hop_AB : siteAB.Sound chain lendWorld :=
  sound_of (k := siteAB) (x := tA) (y := tB) (by decide +kernel) ⟨rfl, rfl, rfl⟩ rfl rfl (by decide +kernel) (by decide +kernel)
private theorem hop_BC : siteBC.Sound chain lendWorld :=
  sound_of (k := siteBC) (x := tB) (y := tC) (by decide +kernel) ⟨rfl, rfl, rfl⟩ rfl rfl (by decide +kernel) (by decide +kernel)
theorem serve_acts_BC : Acts chain lendWorld siteBC tX serveMoment.1 where
  moment := serve_acts.moment
  pair := by decide +kernel
  lp := by decide +kernel
  asset0 := by decide +kernel
  asset1 := by decide +kernel

private theorem look_AB {info : PairInfo} (h : Factory.queryPair chain.api (facState serveMoment.1 fac) (.token tA, .token tB) = .ok info) :
    info.contractAddr = pAB := by
  have e : val (Factory.queryPair chain.api (facState serveMoment.1 fac) (.token tA, .token tB)) = some info := by rw [h]; rfl
  have e2 : (val (Factory.queryPair chain.api (facState serveMoment.1 fac) (.token tA, .token tB))).map
    PairInfo.contractAddr = some pAB := by decide +kernel
  rw [e] at e2; exact Option.some.inj e2
private theorem look_BC {info : PairInfo} (h : Factory.queryPair chain.api (facState serveMoment.1 fac) (.token tB, .token tC) = .ok info) :
    info.contractAddr = pBC := by
  have e : val (Factory.queryPair chain.api (facState serveMoment.1 fac) (.token tB, .token tC)) = some info := by rw [h]; rfl
  have e2 : (val (Factory.queryPair chain.api (facState serveMoment.1 fac) (.token tB, .token tC))).map
    PairInfo.contractAddr = some pBC := by decide +kernel
  rw [e] at e2; exact Option.some.inj e2

theorem serve_route : ActsOnRoute chain lendWorld serveMoment.1 tX rou fac tA none none ⟨fac⟩ (facState serveMoment.1 fac) viaB
    [siteAB, siteBC] ⟨.token tA, .token tB⟩ ⟨.token tB, .token tC⟩ none where
  acts := by
    intro k hk
    simp only [List.mem_cons, List.not_mem_nil, or_false] at hk
    rcases hk with rfl | rfl
    exacts [serve_acts, serve_acts_BC]
  ne_rou := by decide +kernel
  router := rouAt_eq (p := (none, ⟨fac⟩)) (by decide +kernel)
  names := rfl
  factory := facState_eq (a := fac) (by decide +kernel)
  pairs := .cons ⟨hop_AB, .inl ⟨rfl, rfl⟩, fun _ h => look_AB h⟩ (.cons ⟨hop_BC, .inl ⟨rfl, rfl⟩, fun _ h => look_BC h⟩ .nil)
  nodup := by decide +kernel
  con := by decide +kernel
  head := rfl
  tail := rfl
  offer := rfl
  empty := by decide +kernel
  rcv_rou := by decide +kernel
  rcv_pairs := by decide +kernel

def serveRun : R (Nat × World) := run chain idle 20 serveMoment.1
  [.msg tX (plain (.exec tA (.send rou 400 (.executeSwapOperations viaB (some 1000) none)) []))]
private theorem serveRun_ok : isOk serveRun = true := by decide +kernel
/-- 400 A are quoted as 1300 C. -/
theorem serve_routeQuote : Router.simulateSwapOperations chain.api (querier chain (idle.query 0) serveMoment.1) ⟨fac⟩ 400 viaB = .ok 1300 := by
  decide +kernel
example : (∃ k ∈ [siteAB, siteBC], k.Broken serveMoment.1) ∨ ∃ v', held v' (.token tC) tX = held serveMoment.1 (.token tC) tX + 1300 := by
  cases h : serveRun with
  | error e => have h2 := serveRun_ok; rw [h] at h2; cases h2
  | ok r =>
    refine (C122_route_pays lawful hop_reachable serve_route serve_routeQuote (n' := r.1) (v' := r.2) h).imp id fun h => ⟨r.2, ?_⟩
    have := h.2.2.1 (.token tC)
    simpa [show ((AssetInfo.token tC = AssetInfo.token tA) ↔ False) from by decide +kernel] using this

/-- The contract cannot send more A than it has. -/
example : (∃ k ∈ [siteAB, siteBC], k.Broken serveMoment.1) ∨ ¬ ∃ n n' v', run chain idle n serveMoment.1
    [.msg tX (plain (.exec tA (.send rou 2000 (.executeSwapOperations viaB none none)) []))] = .ok (n', v') := by
  refine (C122_route_iff lawful hop_reachable serve_route (fun k hk => ?_) none (fun _ _ h => nomatch h) 2000 idle (idle.query 0)).imp id
    fun h h' => ?_
  · simp only [List.mem_cons, List.not_mem_nil, or_false] at hk
    rcases hk with rfl | rfl <;> exact fits_of rfl rfl _
  · exact absurd (h.mp h').2.1 (by decide +kernel)

end Demo
end Halo
