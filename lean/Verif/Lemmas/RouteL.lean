import Verif.Lemmas.RouterL
import Verif.Lemmas.LiveL
/-! # When routes go through (helper lemmas for C60) -/

namespace Halo
open _root_.Halo.Spec

theorem TokensOk.run {c : Chain} {adv : Adv} {n n' : Nat} {w w' : World} {fs : List Frame} (hw : TokensOk w)
    (h : run c adv n w fs = .ok (n', w')) : TokensOk w' :=
  run_induct (P := fun v _ => TokensOk v) (fun _ _ _ _ _ _ hp hs => hp.step hs) hw h

/-- A message without coins to a router that accepts it. -/
theorem step_router_of {c : Chain} {adv : Adv} {n : Nat} {v : World} {sender a : Addr} {m : ExecMsg}
    (hr : c.api.resolve a = .ok a) {adm : Option Addr} {s s' : Router.State} {r : Response}
    (ha : v.contracts a = some ⟨adm, .router s⟩) (hm : m.inRange = true)
    (hx : Router.execute c.api (querier c (adv.query n) v) a s sender m = .ok (s', r)) :
    step c adv n v (.msg sender (plain (.exec a m []))) = .ok (v, frames a r) := by
  have e := Router.execute_state hx
  subst e
  simp only [step, plain, bind_eq_ok, require_eq_ok, pure_eq_ok, Prod.exists, callExecute]
  refine ⟨a, hr, (), by rw [ha]; rfl, v, moveCoins_nil.mpr rfl, v, frames a r,
    ⟨(), hm, ?_⟩, by simp only [replyFrame, List.append_nil]⟩
  rw [ha]
  simp only [bind_eq_ok, pure_eq_ok, Prod.exists]
  exact ⟨s', r, hx, by rw [PairSite.setState_self_eq ha]⟩

/-- A factory answers pair queries from its storage. -/
theorem pairInfo_iff {c : Chain} {q : Querier} {v : World} {f : Addr} {as : AssetInfo × AssetInfo} {info : PairInfo}
    {adm : Option Addr} {fs : Factory.State} (hf : v.contracts f = some ⟨adm, .factory fs⟩)
    (hr : c.api.resolve f = .ok f) :
    (querier c q v).pairInfo f as = .ok info ↔ chkPI (Factory.queryPair c.api fs as) = .ok info := by
  have e : lookState c v f = .ok (.factory fs) := by
    simp only [lookState, bind_eq_ok, okOr_eq_ok, pure_eq_ok]
    exact ⟨f, hr, _, hf, rfl⟩
  simp only [querier, baseQuerier, e]
  rfl

/-- What a reverse simulation query computes. -/
theorem PairSite.Good.reversed {c : Chain} {k : PairSite} {q : Querier} {v : World} {i j : AssetInfo} {y : Nat}
    {resp : SimResp} (hg : k.Good v) (hx : k.Ctx c) (hra : c.api.human k.s.contractAddr = some k.a) (hd : k.Dir i j)
    (h : Pair.queryReverseSimulation c.api (baseQuerier c q v) k.s ⟨j, y⟩ = .ok resp) :
    held v i k.a < B128 ∧ held v j k.a < B128 ∧
      Pair.computeOfferAmount (held v i k.a) (held v j k.a) y = .ok (resp.amount, resp.spread, resp.commission) := by
  simp only [Pair.queryReverseSimulation, bind_eq_ok, pure_eq_ok, Prod.exists, humanize_eq_ok] at h
  obtain ⟨ca, h1, p0, p1, h2, o, a, h3, r, s, cm, h4, rfl⟩ := h
  rw [hra] at h1
  cases h1
  obtain ⟨e0, e1, a0, a1, b0, b1⟩ := hg.pools hx (q := q) h2
  have hne := hx.ne
  rcases hd with ⟨d0, d1⟩ | ⟨d0, d1⟩
  · have n1 : ¬ j.equal p0.info := by rw [AssetInfo.equal_iff, e0, ← d1]; exact Ne.symm hne
    have n2 : j.equal p1.info := by rw [AssetInfo.equal_iff, e1, d1]
    simp only [n1, n2, ↓reduceIte] at h3
    cases h3
    rw [← d0, ← d1, ← a0, ← a1]; exact ⟨b0, b1, h4⟩
  · have n2 : j.equal p0.info := by rw [AssetInfo.equal_iff, e0, d1]
    simp only [n2, ↓reduceIte] at h3
    cases h3
    rw [← d0, ← d1, ← a0, ← a1]; exact ⟨b1, b0, h4⟩

/-- The router is about to perform the route `ops` over the pairs `ks` with `x` units of the first asset. -/
structure RouteSt (c : Chain) (a f rcv : Addr) (adm fadm : Option Addr) (s : Router.State) (fst : Factory.State)
    (v : World) (ops : List SwapOp) (ks : List PairSite) (x : Nat) : Prop where
  router : v.contracts a = some ⟨adm, .router s⟩
  factory : v.contracts f = some ⟨fadm, .factory fst⟩
  site : List.Forall₂ (HopSite c v fst) ops ks
  nodup : (ks.map PairSite.a).Nodup
  con : Connected ops
  rcv_ne : rcv ≠ a
  rcv_not : rcv ∉ ks.map PairSite.a
  bal : ∀ op, ops.head? = some op → held v op.offer a = x
  zero : ∀ op0, ops.head? = some op0 → ∀ op ∈ ops, op.offer ≠ op0.offer → held v op.offer a = 0

/-- The amounts along a route that goes through, at the reserves of `v`. -/
def Legs (c : Chain) (fst : Factory.State) (v : World) : List SwapOp → List PairSite → Nat → Nat → Prop
  | [], [], x, y => x = y
  | op :: ops, k :: ks, x, y => x ≠ 0 ∧ (∃ t, op.offer = .token t) ∧
      (∃ info, chkPI (Factory.queryPair c.api fst (op.offer, op.ask)) = .ok info) ∧
      ∃ r s cm, Pair.computeSwap (held v op.offer k.a) (held v op.ask k.a) x = .ok (r, s, cm) ∧
        Pair.assertMaxSpread none none x r s (k.decimals op.offer).1 (k.decimals op.offer).2 = .ok () ∧
        Legs c fst v ops ks r y
  | _, _, _, _ => False

theorem Legs.congr {c : Chain} {fst : Factory.State} {v v' : World} : ∀ {ops : List SwapOp} {ks : List PairSite}
    {x y : Nat}, Legs c fst v ops ks x y → (∀ k ∈ ks, ∀ i, held v' i k.a = held v i k.a) → Legs c fst v' ops ks x y := by
  intro ops
  induction ops with
  | nil => intro ks x y h hk; cases ks with | nil => exact h | cons => cases h
  | cons op ops ih =>
    intro ks x y h hk
    cases ks with
    | nil => cases h
    | cons k ks =>
      obtain ⟨h0, ht, hi, r, s, cm, h1, h2, h3⟩ := h
      refine ⟨h0, ht, hi, r, s, cm, ?_, h2, ih h3 fun k' hk' => hk k' (.tail _ hk')⟩
      rw [hk k (.head _), hk k (.head _)]
      exact h1

theorem Legs.quote {c : Chain} {fst : Factory.State} {v : World} : ∀ {ops : List SwapOp} {ks : List PairSite}
    {x y : Nat}, Legs c fst v ops ks x y → Quote v ops ks x y := by
  intro ops
  induction ops with
  | nil => intro ks x y h; cases ks with | nil => exact h | cons => cases h
  | cons op ops ih =>
    intro ks x y h
    cases ks with
    | nil => cases h
    | cons k ks =>
      obtain ⟨_, _, _, r, s, cm, h1, _, h3⟩ := h
      exact ⟨r, s, cm, h1, ih h3⟩

namespace RouteSt

variable {c : Chain} {a f rcv : Addr} {adm fadm : Option Addr} {s : Router.State} {fst : Factory.State}

theorem ne_pair {v : World} {op : SwapOp} {ops : List SwapOp} {k : PairSite} {ks : List PairSite} {x : Nat}
    (h : RouteSt c a f rcv adm fadm s fst v (op :: ops) (k :: ks) x) : a ≠ k.a := by
  cases h.site with
  | cons h1 _ => rintro rfl; have := h.router; rw [h1.good.pair] at this; cases this

theorem hop {v : World} {op : SwapOp} {ops : List SwapOp} {k : PairSite} {ks : List PairSite} {x : Nat}
    (h : RouteSt c a f rcv adm fadm s fst v (op :: ops) (k :: ks) x) : HopSite c v fst op k := by
  cases h.site with
  | cons h1 _ => exact h1

theorem rcv_ne_pair {v : World} {op : SwapOp} {ops : List SwapOp} {k : PairSite} {ks : List PairSite} {x : Nat}
    (h : RouteSt c a f rcv adm fadm s fst v (op :: ops) (k :: ks) x) : rcv ≠ k.a :=
  fun e => h.rcv_not (by simp [e])

/-- The state after the first hop of a longer route. -/
theorem next {v v1 u : World} {op op2 : SwapOp} {ops : List SwapOp} {k : PairSite} {ks : List PairSite} {x r : Nat}
    (h : RouteSt c a f rcv adm fadm s fst v (op :: op2 :: ops) (k :: ks) x) (hx1 : Xfer op.offer a k.a x v v1)
    (hx2 : (r = 0 ∧ u = v1) ∨ (r ≠ 0 ∧ Xfer op.ask k.a a r v1 u)) :
    RouteSt c a f rcv adm fadm s fst u (op2 :: ops) ks r ∧ TokKeep v u ∧
      (∀ b, b ≠ a → b ≠ k.a → ∀ i, held u i b = held v i b) ∧
      (∀ k' ∈ ks, ∀ i, held u i k'.a = held v i k'.a) ∧ held u op.offer a = 0 ∧
      ∀ i, i ≠ op.offer → i ≠ op.ask → held u i a = held v i a := by
  have hak := h.ne_pair
  have ha := h.router
  have hb := h.bal op rfl
  obtain ⟨hsite, hnd, hcon, hz⟩ := And.intro h.site (And.intro h.nodup (And.intro h.con (h.zero op rfl)))
  cases hsite with
  | cons h1 h2 =>
    have hcc : op.ask = op2.offer := (List.isChain_cons_cons.mp hcon).1
    have hne : op.offer ≠ op.ask := h1.dir.ne h1.ctx
    have hkeep : TokKeep v u := by
      rcases hx2 with ⟨_, rfl⟩ | ⟨_, hx2⟩
      exacts [hx1.keep, hx1.keep.trans hx2.keep]
    have hout : ∀ b, b ≠ a → b ≠ k.a → ∀ i, held u i b = held v i b := by
      intro b hb1 hb2 i
      rcases hx2 with ⟨_, rfl⟩ | ⟨_, hx2⟩
      · exact hx1.outside hb1 hb2 i
      · exact (hx2.outside hb2 hb1 i).trans (hx1.outside hb1 hb2 i)
    have hask : held u op.ask a = held v op.ask a + r := by
      rcases hx2 with ⟨rfl, rfl⟩ | ⟨_, hx2⟩
      · exact hx1.other _ (Ne.symm hne) a
      · rw [(hx2.bal (Ne.symm hak)).2, hx1.other _ (Ne.symm hne) a]
    have hoff : held u op.offer a = 0 := by
      have h3 : held v1 op.offer a = 0 := by rw [(hx1.bal hak).1]; omega
      rcases hx2 with ⟨_, rfl⟩ | ⟨_, hx2⟩
      · exact h3
      · rw [hx2.other _ hne, h3]
    have hoth : ∀ i, i ≠ op.offer → i ≠ op.ask → held u i a = held v i a := by
      intro i hi1 hi2
      rcases hx2 with ⟨_, rfl⟩ | ⟨_, hx2⟩
      · exact hx1.other i hi1 a
      · rw [hx2.other i hi2, hx1.other i hi1]
    have hnd2 : k.a ∉ ks.map PairSite.a ∧ (ks.map PairSite.a).Nodup := by simpa using hnd
    have hks : ∀ k' ∈ ks, ∀ i, held u i k'.a = held v i k'.a := by
      intro k' hk' i
      refine hout _ ?_ ?_ i
      · obtain ⟨op', _, hs'⟩ := forall₂_mem_right h2 hk'
        rintro e
        have := hs'.good.pair
        rw [e, ha] at this
        cases this
      · rintro e
        exact hnd2.1 (e ▸ List.mem_map_of_mem hk')
    have hask0 : held v op.ask a = 0 := by
      refine hcc ▸ hz op2 (by simp) ?_
      rw [← hcc]; exact Ne.symm hne
    refine ⟨⟨hkeep.contracts ha (by intro st h; cases h), hkeep.contracts h.factory (by intro st h; cases h),
      h2.imp fun _ _ hh => hh.keep hkeep, hnd2.2, (List.isChain_cons_cons.mp hcon).2, h.rcv_ne,
      (fun hm => h.rcv_not (by simp only [List.map_cons, List.mem_cons]; exact .inr hm)), ?_, ?_⟩, hkeep, hout, hks, hoff,
      hoth⟩
    · intro op' e
      simp only [List.head?_cons, Option.some.injEq] at e
      subst e
      rw [← hcc, hask, hask0, Nat.zero_add]
    · intro op0 e op' hop' hne'
      simp only [List.head?_cons, Option.some.injEq] at e
      subst e
      by_cases hoo : op'.offer = op.offer
      · rw [hoo]; exact hoff
      · rw [hoth _ hoo (hcc ▸ hne')]
        exact hz op' (.tail _ hop') hoo

/-- The effect of the first hop. -/
theorem hop_effect {adv : Adv} {n n' : Nat} {v v' : World} {op : SwapOp} {ops : List SwapOp} {k : PairSite}
    {ks : List PairSite} {x : Nat} {dst : Option Str} (hr : c.api.resolve a = .ok a)
    (hfa : c.api.human s.haloFactory = some f) (h : RouteSt c a f rcv adm fadm s fst v (op :: ops) (k :: ks) x)
    (hrun : run c adv n v [.msg a (plain (.exec a (.executeSwapOperation op dst) []))] = .ok (n', v')) :
    (∃ t, op.offer = .token t) ∧ ∃ ret sp cm v1,
      Pair.computeSwap (held v op.offer k.a) (held v op.ask k.a) x = .ok (ret, sp, cm) ∧
      Xfer op.offer a k.a x v v1 ∧
      ((ret = 0 ∧ v' = v1) ∨ (ret ≠ 0 ∧ Xfer op.ask k.a (dst.getD a) ret v1 v')) := by
  have h1 := h.hop
  obtain ⟨_, ht, hh⟩ := hop_exact hr h.router hfa h.factory h1.look h1.good h1.ctx h1.res h1.dir hrun
  rw [h.bal op rfl] at hh
  exact ⟨ht, hh⟩

/-- The first hop goes through. -/
theorem hop_live (adv : Adv) (n : Nat) {v : World} {op : SwapOp} {ops : List SwapOp} {k : PairSite} {ks : List PairSite}
    {x : Nat} {dst : Option Str} (hr : c.api.resolve a = .ok a) (hfa : c.api.human s.haloFactory = some f)
    (hv : TokensOk v) (h : RouteSt c a f rcv adm fadm s fst v (op :: ops) (k :: ks) x)
    (hdst : ∀ d, dst = some d → c.api.validate d = .ok d) (hx0 : x ≠ 0) {t : Addr} (ht : op.offer = .token t)
    {info : PairInfo} (hi : chkPI (Factory.queryPair c.api fst (op.offer, op.ask)) = .ok info)
    (hb0 : held v op.offer k.a < B128) (hb1 : held v op.ask k.a < B128) {r sp cm : Nat}
    (hp : Pair.computeSwap (held v op.offer k.a) (held v op.ask k.a) x = .ok (r, sp, cm))
    (hs : Pair.assertMaxSpread none none x r sp (k.decimals op.offer).1 (k.decimals op.offer).2 = .ok ()) :
    ∃ n' v', n ≤ n' ∧ run c adv (n + 4) v [.msg a (plain (.exec a (.executeSwapOperation op dst) []))] = .ok (n', v') := by
  have h1 := h.hop
  have hbx := h.bal op rfl
  have hhon := h1.good.honest h1.dir.fst
  have hfr := h1.ctx.law.resolve_human hfa
  have hka : info.contractAddr = k.a := by
    refine h1.look info ?_
    simp only [chkPI, bind_eq_ok, require_eq_ok, pure_eq_ok] at hi
    obtain ⟨_, hi, _, _, rfl⟩ := hi
    exact hi
  rw [ht] at hbx hhon hb0 hp hs
  have hd : k.Dir (.token t) op.ask := ht ▸ h1.dir
  have hxlt : x < B128 := hbx ▸ held_lt hv t a
  have hret : r ≤ held v op.ask k.a := by
    obtain ⟨_, _, _, _, _, e, _, _⟩ := (computeSwap_ok_iff hb0 hb1 hxlt).mp hp
    have := grossOf_le (held v (.token t) k.a) (held v op.ask k.a) x
    omega
  obtain ⟨n', v', hn, hrun⟩ := h1.good.swap_live adv n (S := a) (dst := dst) hv h1.ctx h1.res hr h.ne_pair hd hb1 hx0
    (by omega) hdst rfl hp hret hs
  have hq := queryPool_live (c := c) (q := adv.query (n + 3)) hhon (fun t' e => h1.ctx.resolve_of hd.fst e) hr
    (b := a) (by rw [hbx]; exact hxlt)
  refine ⟨n', v', hn, run_cons_of (step_router_of hr h.router rfl (s' := s) (r := {
    messages := [plain (Router.assetIntoSwapMsg k.a ⟨.token t, x⟩ none dst)] }) ?_) ?_⟩
  · simp only [Router.execute, Router.executeSwapOperation, bind_eq_ok, require_eq_ok, pure_eq_ok, Prod.mk.injEq,
      humanize_eq_ok]
    refine ⟨dst, Pair.optValidate_eq_ok.mpr ⟨rfl, hdst⟩, (), trivial, f, hfa, info, (pairInfo_iff h.factory hfr).mpr hi, x, ?_,
      trivial, ?_⟩
    · rw [ht]
      rw [hbx] at hq
      exact hq
    · rw [hka, ht]
  · simpa [frames, replyFrame, plain, Router.assetIntoSwapMsg] using hrun

/-- A route with priced legs goes through. -/
theorem live (adv : Adv) (hr : c.api.resolve a = .ok a) (hfa : c.api.human s.haloFactory = some f)
    (hrcv : c.api.validate rcv = .ok rcv) : ∀ {ops : List SwapOp} {ks : List PairSite} {v : World} {x y : Nat} (n : Nat),
    TokensOk v → RouteSt c a f rcv adm fadm s fst v ops ks x →
    (∀ k ∈ ks, held v k.i0 k.a < B128 ∧ held v k.i1 k.a < B128) → Legs c fst v ops ks x y →
    ∃ n' v', n ≤ n' ∧
      run c adv (n + 4 * ops.length) v ((Router.hopMsgs a rcv ops).map fun m => .msg a (plain m)) = .ok (n', v') := by
  intro ops
  induction ops with
  | nil => intro ks v x y n _ _ _ _; exact ⟨n, v, Nat.le_refl n, run_nil⟩
  | cons op ops ih =>
    intro ks v x y n hv h hbd hl
    cases ks with
    | nil => cases hl
    | cons k ks =>
      obtain ⟨hx0, ⟨t, ht⟩, ⟨info, hi⟩, r, sp, cm, hp, hs, hl2⟩ := hl
      have hb : held v op.offer k.a < B128 ∧ held v op.ask k.a < B128 := by
        have := hbd k (.head _)
        rcases h.hop.dir with ⟨e0, e1⟩ | ⟨e0, e1⟩
        · rw [← e0, ← e1]; exact this
        · rw [← e0, ← e1]; exact this.symm
      cases ops with
      | nil =>
        exact hop_live adv n hr hfa hv h (dst := some rcv) (fun d e => by cases e; exact hrcv) hx0 ht hi hb.1 hb.2 hp hs
      | cons op2 ops =>
        obtain ⟨m, u, hm, hrun⟩ := hop_live adv (n + 4 * (op2 :: ops).length) hr hfa hv h (dst := none)
          (fun d e => by cases e) hx0 ht hi hb.1 hb.2 hp hs
        obtain ⟨_, r', _, _, v1, hp', hx1, hx2⟩ := h.hop_effect hr hfa hrun
        rw [hp] at hp'
        cases hp'
        obtain ⟨hst, _, _, hks, _, _⟩ := h.next hx1 hx2
        obtain ⟨n', v', hn, hrun2⟩ := ih (m - 4 * (op2 :: ops).length) (hv.run hrun) hst
          (fun k' hk' => by rw [hks k' hk', hks k' hk']; exact hbd k' (.tail _ hk')) (hl2.congr hks)
        rw [show m - 4 * (op2 :: ops).length + 4 * (op2 :: ops).length = m by omega] at hrun2
        refine ⟨n', v', by omega, ?_⟩
        simp only [Router.hopMsgs, List.map_cons]
        rw [show n + 4 * (op :: op2 :: ops).length = n + 4 * (op2 :: ops).length + 4 by
          simp only [List.length_cons]; omega, ← List.singleton_append (l := List.map _ _), run_append]
        exact ⟨m, u, hrun, hrun2⟩

/-- What the first hop needed. -/
theorem hop_needs {adv : Adv} {n n' : Nat} {v v' : World} {op : SwapOp} {ops : List SwapOp} {k : PairSite} {ks : List PairSite} {x : Nat}
    {dst : Option Str} (hr : c.api.resolve a = .ok a) (hfa : c.api.human s.haloFactory = some f)
    (h : RouteSt c a f rcv adm fadm s fst v (op :: ops) (k :: ks) x)
    (hrun : run c adv n v [.msg a (plain (.exec a (.executeSwapOperation op dst) []))] = .ok (n', v')) :
    x ≠ 0 ∧ (∃ t, op.offer = .token t) ∧ (∃ info, chkPI (Factory.queryPair c.api fst (op.offer, op.ask)) = .ok info) ∧
    ∃ r sp cm v1, Pair.computeSwap (held v op.offer k.a) (held v op.ask k.a) x = .ok (r, sp, cm) ∧
      Pair.assertMaxSpread none none x r sp (k.decimals op.offer).1 (k.decimals op.offer).2 = .ok () ∧
      Xfer op.offer a k.a x v v1 ∧
      ((r = 0 ∧ v' = v1) ∨ (r ≠ 0 ∧ Xfer op.ask k.a (dst.getD a) r v1 v')) := by
  have h1 := h.hop
  have hfr := h1.ctx.law.resolve_human hfa
  obtain ⟨⟨t, ht⟩, r, sp, cm, v1, hp, hx1, hx2⟩ := h.hop_effect hr hfa hrun
  obtain ⟨_, _, m, q, f', info, x', rfl, e1, e2, e3, hrun1⟩ := hop_inv hr h.router hrun
  rw [hfa] at e1
  cases e1
  have hxe := (queryPool_held (h1.good.honest h1.dir.fst) e3).1
  rw [h.bal op rfl] at hxe
  subst hxe
  have hka := h1.look _ (pairInfo_eq h.factory hfr e2)
  rw [hka, ht] at hrun1
  simp only [Router.assetIntoSwapMsg] at hrun1
  obtain ⟨_, _, _, _, r', sp', cm', hp', hs⟩ := h1.good.swap_needs h1.ctx h1.res h.ne_pair (ht ▸ h1.dir) hrun1
  rw [← ht, hp] at hp'
  cases hp'
  exact ⟨hx1.pos, ⟨t, ht⟩, ⟨info, (pairInfo_iff h.factory hfr).mp e2⟩, r, sp, cm, v1, hp, by rw [ht]; exact hs, hx1, hx2⟩

/-- A route that went through had priced legs. -/
theorem needs {adv : Adv} (hr : c.api.resolve a = .ok a) (hfa : c.api.human s.haloFactory = some f) :
    ∀ {ops : List SwapOp} {ks : List PairSite} {v v' : World} {x : Nat} {n n' : Nat},
    RouteSt c a f rcv adm fadm s fst v ops ks x →
    run c adv n v ((Router.hopMsgs a rcv ops).map fun m => .msg a (plain m)) = .ok (n', v') →
    ∃ y, Legs c fst v ops ks x y := by
  intro ops
  induction ops with
  | nil => intro ks v v' x n n' h _; cases h.site; exact ⟨x, rfl⟩
  | cons op ops ih =>
    intro ks v v' x n n' h hrun
    cases ks with
    | nil => cases h.site
    | cons k ks =>
      cases ops with
      | nil =>
        cases h.site with
        | cons _ h2 =>
          cases h2
          simp only [Router.hopMsgs, List.map_cons, List.map_nil] at hrun
          obtain ⟨h0, ht, hi, r, sp, cm, v1, hp, hs, _, _⟩ := h.hop_needs hr hfa hrun
          exact ⟨r, h0, ht, hi, r, sp, cm, hp, hs, rfl⟩
      | cons op2 ops =>
        simp only [Router.hopMsgs, List.map_cons] at hrun
        rw [← List.singleton_append, run_append] at hrun
        obtain ⟨m, u, hrun1, hrun2⟩ := hrun
        obtain ⟨h0, ht, hi, r, sp, cm, v1, hp, hs, hx1, hx2⟩ := h.hop_needs hr hfa hrun1
        obtain ⟨hst, _, _, hks, _, _⟩ := h.next hx1 hx2
        obtain ⟨y, hy⟩ := ih hst hrun2
        exact ⟨y, h0, ht, hi, r, sp, cm, hp, hs, hy.congr fun k' hk' i => (hks k' hk' i).symm⟩

/-- What a route does to everyone's balances: the receiver gets the output, the router keeps nothing of what it was to
spend, and only the router, the receiver and the pairs are concerned. -/
theorem effect {adv : Adv} (hr : c.api.resolve a = .ok a) (hfa : c.api.human s.haloFactory = some f) :
    ∀ {ops : List SwapOp} {ks : List PairSite} {v v' : World} {x y : Nat} {n n' : Nat} {last : SwapOp},
    RouteSt c a f rcv adm fadm s fst v ops ks x → ops.getLast? = some last → Quote v ops ks x y →
    run c adv n v ((Router.hopMsgs a rcv ops).map fun m => .msg a (plain m)) = .ok (n', v') →
    TokKeep v v' ∧ held v' last.ask rcv = held v last.ask rcv + y ∧
      (∀ i, i ≠ last.ask → held v' i rcv = held v i rcv) ∧ (∀ op ∈ ops, held v' op.offer a = 0) ∧
      (∀ i, (∀ op ∈ ops, i ≠ op.offer) → held v' i a = held v i a) ∧
      ∀ b, b ≠ a → b ≠ rcv → b ∉ ks.map PairSite.a → ∀ i, held v' i b = held v i b := by
  intro ops
  induction ops with
  | nil => intro _ _ _ _ _ _ _ _ _ h; cases h
  | cons op ops ih =>
    intro ks v v' x y n n' last h hl hq hrun
    cases ks with
    | nil => cases h.site
    | cons k ks =>
      obtain ⟨r, sp, cm, hc1, hq2⟩ := hq
      have hak := h.ne_pair
      have hra := h.rcv_ne
      have hrk := h.rcv_ne_pair
      have hne : op.offer ≠ op.ask := h.hop.dir.ne h.hop.ctx
      cases ops with
      | nil =>
        cases h.site with
        | cons _ h2 =>
        cases h2
        simp only [List.getLast?_singleton, Option.some.injEq] at hl
        subst hl
        simp only [Router.hopMsgs, List.map_cons, List.map_nil] at hrun
        obtain ⟨_, ret, sp', cm', v1, hc2, hx1, hx2⟩ := h.hop_effect hr hfa hrun
        rw [hc1] at hc2
        cases hc2
        cases hq2
        have e1 : ∀ i, held v1 i rcv = held v i rcv := hx1.outside hra hrk
        have e2 : held v1 op.offer a = 0 := by rw [(hx1.bal hak).1, h.bal op rfl]; omega
        rcases hx2 with ⟨rfl, rfl⟩ | ⟨_, hx2⟩
        · refine ⟨hx1.keep, e1 _, fun i _ => e1 i, ?_, ?_, ?_⟩
          · intro op' ho; simp only [List.mem_singleton] at ho; subst ho; exact e2
          · intro i hi; exact hx1.other i (hi op (by simp)) a
          · intro b h1 h2 h3 i; exact hx1.outside h1 (fun e => h3 (by simp [e])) i
        · simp only [Option.getD_some] at hx2
          refine ⟨hx1.keep.trans hx2.keep, ?_, fun i hi => ?_, ?_, ?_, ?_⟩
          · rw [(hx2.bal (Ne.symm hrk)).2, e1]
          · rw [hx2.other i hi, e1]
          · intro op' ho; simp only [List.mem_singleton] at ho; subst ho
            rw [hx2.outside hak (Ne.symm hra), e2]
          · intro i hi; rw [hx2.outside hak (Ne.symm hra)]; exact hx1.other i (hi op (by simp)) a
          · intro b h1 h2 h3 i
            have h3' : b ≠ k.a := fun e => h3 (by simp [e])
            rw [hx2.outside h3' h2]; exact hx1.outside h1 h3' i
      | cons op2 ops =>
        have hcc : op.ask = op2.offer := (List.isChain_cons_cons.mp h.con).1
        simp only [Router.hopMsgs, List.map_cons] at hrun
        rw [← List.singleton_append, run_append] at hrun
        obtain ⟨m, u, hrun1, hrun2⟩ := hrun
        obtain ⟨_, ret, sp', cm', v1, hc2, hx1, hx2⟩ := h.hop_effect hr hfa hrun1
        rw [hc1] at hc2
        cases hc2
        obtain ⟨hst, hkeep, hout, hks, hoff, hoth⟩ := h.next hx1 hx2
        obtain ⟨k1, k2, k3, k4, k5, k6⟩ := ih hst (by simpa using hl) (hq2.congr hks) hrun2
        refine ⟨hkeep.trans k1, ?_, fun i hi => ?_, ?_, ?_, ?_⟩
        · rw [k2, hout rcv hra hrk]
        · rw [k3 i hi, hout rcv hra hrk]
        · intro op' ho
          rcases List.mem_cons.mp ho with rfl | ho
          · by_cases hh : ∃ op3 ∈ op2 :: ops, op3.offer = op'.offer
            · obtain ⟨op3, h3, e3⟩ := hh
              rw [← e3]; exact k4 op3 h3
            · rw [k5 _ fun op3 h3 e => hh ⟨op3, h3, e.symm⟩, hoff]
          · exact k4 op' ho
        · intro i hi
          rw [k5 i fun op' ho => hi op' (.tail _ ho)]
          exact hoth i (hi op (.head _)) (hcc ▸ hi op2 (by simp))
        · intro b h1 h2 h3 i
          simp only [List.map_cons, List.mem_cons, not_or] at h3
          rw [k6 b h1 h2 h3.2, hout b h1 h3.1]

end RouteSt
end Halo
