import Verif.Spec.Route
import Verif.Props.Agent
import Verif.Props.Halt
/-! # The router from stop to stop (helper lemmas for C124) -/

namespace Halo
open _root_.Halo.Spec

/-- What everybody holds. -/
def purses (w : World) : Purses Addr AssetInfo := fun b i => held w i b

/-- A hop as a stop. -/
def stop (op : SwapOp) (k : PairSite) : Stop Addr AssetInfo :=
  ⟨k.a, op.offer, op.ask, (k.decimals op.offer).1, (k.decimals op.offer).2⟩

/-- The hops of a route as stops. -/
def stops (ops : List SwapOp) (ks : List PairSite) : List (Stop Addr AssetInfo) := List.zipWith stop ops ks

theorem Xfer.purses {i : AssetInfo} {src dst : Addr} {x : Nat} {v v' : World} (h : Xfer i src dst x v v') :
    Halo.purses v' = (Halo.purses v).pay i src dst x := by
  funext q l
  change held v' l q = if l = i then (if q = src then held v l q - x else held v l q) + (if q = dst then x else 0) else held v l q
  by_cases hl : l = i
  · subst hl
    rw [if_pos rfl]
    have hle := h.le
    by_cases hsd : src = dst
    · subst hsd
      by_cases hq : q = src
      · subst hq
        rw [if_pos rfl, if_pos rfl, h.same rfl]; omega
      · rw [if_neg hq, if_neg hq, h.rest q hq hq]; omega
    · obtain ⟨h1, h2⟩ := h.bal hsd
      by_cases hq : q = src
      · subst hq
        rw [if_pos rfl, if_neg hsd, h1]; omega
      · rw [if_neg hq]
        by_cases hq' : q = dst
        · subst hq'
          rw [if_pos rfl, h2]
        · rw [if_neg hq', h.rest q hq hq']; omega
  · rw [if_neg hl, h.other l hl]

theorem pay_zero (b : Purses Addr AssetInfo) (i : AssetInfo) (src dst : Addr) : b.pay i src dst 0 = b := by
  funext q l
  unfold Purses.pay
  split
  · split <;> simp
  · rfl

theorem price_iff {o a x r s cm : Nat} (ho : o < B128) (ha : a < B128) (hx : x < B128) :
    Pair.computeSwap o a x = .ok (r, s, cm) ↔
      o ≠ 0 ∧ Priceable o a x ∧ r = payout o a x ∧ s = spot o a x - gross o a x ∧ cm = 3 * gross o a x / 1000 := by
  have hD : DF = 10 ^ 18 := by norm_num [DF]
  have e1 : grossOf o a x = gross o a x := by unfold grossOf gross; rw [hD]
  have e2 : idealOf o a x = spot o a x := by unfold idealOf spot; rw [hD]
  rw [computeSwap_ok_iff ho ha hx, e1, e2, hD]
  constructor
  · rintro ⟨h1, h2, h3, h4, h5, h6, h7, h8⟩
    subst h6
    refine ⟨h1, ⟨h2, h3, h4, h5⟩, h7, h8, rfl⟩
  · rintro ⟨h1, ⟨h2, h3, h4, h5⟩, h6, h7, rfl⟩
    exact ⟨h1, h2, h3, h4, h5, rfl, h6, h7⟩

theorem payout_lt {o a x : Nat} (ha : a < B128) : payout o a x < B128 := by
  have h1 : payout o a x ≤ gross o a x := Nat.sub_le _ _
  have h2 := grossOf_le o a x
  have hD : DF = 10 ^ 18 := by norm_num [DF]
  have e1 : grossOf o a x = gross o a x := by unfold grossOf gross; rw [hD]
  omega

/-- A token paid in with a message. -/
theorem send_all {c : Chain} {adv : Adv} {n n' : Nat} {v v' : World} {S t : Addr} {x : Nat} {dst : Str} {hk : HookMsg}
    (hi : Honest v (.token t)) (hr : c.api.resolve t = .ok t) (hv : TokensOk v)
    (h : run c adv n v [.msg S (plain (.exec t (.send dst x hk) []))] = .ok (n', v')) :
    ∃ m v1, n = m + 1 ∧ x ≠ 0 ∧ Xfer (.token t) S dst x v v1 ∧ TokensOk v1 ∧
      run c adv m v1 [.msg t (plain (.exec dst (.receive S x hk) []))] = .ok (n', v') := by
  obtain ⟨m, v1, fs1, rfl, hs, hrun⟩ := run_cons_inv h
  have hv1 := hv.step (step_inv hs)
  obtain ⟨adm, st, hst⟩ := hi t rfl
  obtain ⟨st', r, he, rfl, rfl⟩ := tok_exec hr hst (step_inv hs)
  cases he with
  | send _ _ _ hx0 hv hb hf =>
    refine ⟨m, _, rfl, hx0, xfer_token hst hx0 hb, hv1, ?_⟩
    simpa [frames, plain] using hrun

variable {c : Chain} {a f : Addr} {adm fadm : Option Addr} {s : Router.State} {fst : Factory.State}

/-- One hop on its own, with a receiver that does not matter. -/
theorem RouteSt.single {v : World} {op : SwapOp} {k : PairSite} (hro : v.contracts a = some ⟨adm, .router s⟩)
    (hfc : v.contracts f = some ⟨fadm, .factory fst⟩) (h : HopSite c v fst op k) :
    RouteSt c a f (0 :: (a ++ k.a)) adm fadm s fst v [op] [k] (held v op.offer a) := by
  refine ⟨hro, hfc, .cons h .nil, by simp, by simp [Connected], ?_, ?_, ?_, ?_⟩
  · intro e
    have := congrArg List.length e
    simp only [List.length_cons, List.length_append] at this
    omega
  · intro hm
    simp only [List.map_cons, List.map_nil, List.mem_singleton] at hm
    have := congrArg List.length hm
    simp only [List.length_cons, List.length_append] at this
    omega
  · intro op' e
    cases e; rfl
  · intro op0 e op' hm hne
    cases e
    simp only [List.mem_singleton] at hm
    exact absurd (by rw [hm]) hne

/-- What a hop needed and what it did. -/
theorem hop_all {adv : Adv} {n n' : Nat} {v v' : World} {op : SwapOp} {k : PairSite} {dst : Option Str} (hr : c.api.resolve a = .ok a)
    (hfa : c.api.human s.haloFactory = some f) (hro : v.contracts a = some ⟨adm, .router s⟩)
    (hfc : v.contracts f = some ⟨fadm, .factory fst⟩) (h : HopSite c v fst op k) (hv : TokensOk v)
    (hrun : run c adv n v [.msg a (plain (.exec a (.executeSwapOperation op dst) []))] = .ok (n', v')) :
    (∃ t, op.offer = .token t) ∧ (∃ info, chkPI (Factory.queryPair c.api fst (op.offer, op.ask)) = .ok info) ∧
    (stop op k).Open (purses v) a ∧ purses v' = (stop op k).trade (purses v) a (dst.getD a) ∧ TokKeep v v' := by
  have hfr := h.ctx.law.resolve_human hfa
  have hst := RouteSt.single hro hfc h
  obtain ⟨h0, ⟨t, ht⟩, hi, r, sp, cm, v1, hp, hs, hx1, hx2⟩ := hst.hop_needs hr hfa hrun
  have hask : held v op.ask k.a < B128 := by
    obtain ⟨_, _, m, q, f', info, x', rfl, e1, e2, e3, hrun1⟩ := hop_inv hr hro hrun
    rw [hfa] at e1
    cases e1
    have hka := h.look _ (pairInfo_eq hfc hfr e2)
    rw [hka, ht] at hrun1
    simp only [Router.assetIntoSwapMsg] at hrun1
    obtain ⟨_, _, _, _, ⟨_, hb⟩, _⟩ := h.good.swap_exact' h.ctx h.res hr hst.ne_pair (ht ▸ h.dir) hrun1
    exact hb
  have ho : held v op.offer k.a < B128 := ht ▸ held_lt hv t k.a
  have hx : held v op.offer a < B128 := ht ▸ held_lt hv t a
  obtain ⟨ho0, hpr, er, es, _⟩ := (price_iff ho hask hx).mp hp
  have hrlt : r < B128 := er ▸ payout_lt hask
  have hsc := (spread_iff (by simp) (by simp) hx hrlt (es ▸ hpr.near)).mp hs
  refine ⟨⟨t, ht⟩, hi, ⟨h0, ho0, hask, hpr, ?_⟩, ?_, ?_⟩
  · rw [es, er] at hsc
    exact ⟨hsc.1, hsc.2.1⟩
  · unfold Stop.trade
    rw [show (stop op k).pays (purses v) (purses v a (stop op k).offer) = r from er.symm,
      show (purses v).pay (stop op k).offer a (stop op k).pool (purses v a (stop op k).offer) = purses v1 from hx1.purses.symm]
    rcases hx2 with ⟨rfl, rfl⟩ | ⟨_, hx2⟩
    · rw [pay_zero]
    · exact hx2.purses
  · rcases hx2 with ⟨_, rfl⟩ | ⟨_, hx2⟩
    exacts [hx1.keep, hx1.keep.trans hx2.keep]

/-- A hop that can be made goes through. -/
theorem hop_go (adv : Adv) (n : Nat) {v : World} {op : SwapOp} {k : PairSite} {dst : Option Str} (hr : c.api.resolve a = .ok a)
    (hfa : c.api.human s.haloFactory = some f) (hro : v.contracts a = some ⟨adm, .router s⟩)
    (hfc : v.contracts f = some ⟨fadm, .factory fst⟩) (h : HopSite c v fst op k) (hv : TokensOk v)
    (hdst : ∀ d, dst = some d → c.api.validate d = .ok d) (ht : ∃ t, op.offer = .token t)
    (hi : ∃ info, chkPI (Factory.queryPair c.api fst (op.offer, op.ask)) = .ok info) (ho : (stop op k).Open (purses v) a) :
    ∃ n' v', n ≤ n' ∧ run c adv (n + 4) v [.msg a (plain (.exec a (.executeSwapOperation op dst) []))] = .ok (n', v') := by
  obtain ⟨t, ht⟩ := ht
  obtain ⟨info, hi⟩ := hi
  have hst := RouteSt.single hro hfc h
  have hob : held v op.offer k.a < B128 := ht ▸ held_lt hv t k.a
  have hx : held v op.offer a < B128 := ht ▸ held_lt hv t a
  have hp := (price_iff hob ho.fits hx).mpr ⟨ho.stocked, ho.price, rfl, rfl, rfl⟩
  have hrlt := payout_lt (o := held v op.offer k.a) (x := held v op.offer a) ho.fits
  exact hst.hop_live adv n hr hfa hv hdst ho.some ht hi hob ho.fits hp
    ((spread_iff (by simp) (by simp) hx hrlt ho.price.near).mpr ⟨ho.scales.1, ho.scales.2, trivial⟩)

/-- What a series of hops needed and what it did. -/
theorem hops_all {adv : Adv} {rcv : Addr} (hr : c.api.resolve a = .ok a) (hfa : c.api.human s.haloFactory = some f) :
    ∀ {ops : List SwapOp} {ks : List PairSite} {v v' : World} {n n' : Nat}, v.contracts a = some ⟨adm, .router s⟩ →
    v.contracts f = some ⟨fadm, .factory fst⟩ → List.Forall₂ (HopSite c v fst) ops ks → TokensOk v → ops ≠ [] →
    run c adv n v ((Router.hopMsgs a rcv ops).map fun m => .msg a (plain m)) = .ok (n', v') →
    (∀ op ∈ ops, ∃ t, op.offer = .token t) ∧
    (∀ op ∈ ops, ∃ info, chkPI (Factory.queryPair c.api fst (op.offer, op.ask)) = .ok info) ∧
    Travels a rcv (purses v) (stops ops ks) (purses v') ∧ TokKeep v v' := by
  intro ops
  induction ops with
  | nil => intro _ _ _ _ _ _ _ _ _ h; exact absurd rfl h
  | cons op ops ih =>
    intro ks v v' n n' hro hfc hs hv _ hrun
    cases hs with
    | cons h1 h2 =>
    rename_i k ks
    cases ops with
    | nil =>
      cases h2
      simp only [Router.hopMsgs, List.map_cons, List.map_nil] at hrun
      obtain ⟨ht, hi, ho, he, hk⟩ := hop_all hr hfa hro hfc h1 hv hrun
      refine ⟨?_, ?_, ?_, hk⟩
      · intro op' hm; simp only [List.mem_singleton] at hm; rw [hm]; exact ht
      · intro op' hm; simp only [List.mem_singleton] at hm; rw [hm]; exact hi
      · rw [he]; exact .last _ _ ho
    | cons op2 ops =>
      cases h2 with
      | cons h3 h4 =>
      rename_i k2 ks
      simp only [Router.hopMsgs, List.map_cons] at hrun
      rw [← List.singleton_append, run_append] at hrun
      obtain ⟨m, u, hrun1, hrun2⟩ := hrun
      obtain ⟨ht, hi, ho, he, hk⟩ := hop_all hr hfa hro hfc h1 hv hrun1
      obtain ⟨g1, g2, g3, g4⟩ := ih (hk.contracts hro (by intro _ h; cases h)) (hk.contracts hfc (by intro _ h; cases h))
        ((List.Forall₂.cons h3 h4).imp fun _ _ hh => hh.keep hk) (hv.run hrun1) (by simp) hrun2
      refine ⟨?_, ?_, .on _ _ _ _ _ ho (by rw [he] at g3; exact g3), hk.trans g4⟩
      · intro op' hm
        rcases List.mem_cons.mp hm with rfl | hm
        exacts [ht, g1 op' hm]
      · intro op' hm
        rcases List.mem_cons.mp hm with rfl | hm
        exacts [hi, g2 op' hm]

/-- A series of hops that can be made goes through. -/
theorem hops_go (adv : Adv) {rcv : Addr} (hr : c.api.resolve a = .ok a) (hfa : c.api.human s.haloFactory = some f)
    (hrcv : c.api.validate rcv = .ok rcv) : ∀ {ops : List SwapOp} {ks : List PairSite} {v : World} {b' : Purses Addr AssetInfo} (n : Nat),
    v.contracts a = some ⟨adm, .router s⟩ → v.contracts f = some ⟨fadm, .factory fst⟩ → List.Forall₂ (HopSite c v fst) ops ks →
    TokensOk v → (∀ op ∈ ops, ∃ t, op.offer = .token t) →
    (∀ op ∈ ops, ∃ info, chkPI (Factory.queryPair c.api fst (op.offer, op.ask)) = .ok info) →
    Travels a rcv (purses v) (stops ops ks) b' →
    ∃ n' v', n ≤ n' ∧
      run c adv (n + 4 * ops.length) v ((Router.hopMsgs a rcv ops).map fun m => .msg a (plain m)) = .ok (n', v') := by
  intro ops
  induction ops with
  | nil => intro ks v b' n _ _ hs _ _ _ ht; cases hs; cases ht
  | cons op ops ih =>
    intro ks v b' n hro hfc hs hv ht hi htr
    cases hs with
    | cons h1 h2 =>
    rename_i k ks
    cases ops with
    | nil =>
      cases h2
      cases htr with
      | last _ _ ho =>
        exact hop_go adv n hr hfa hro hfc h1 hv (dst := some rcv) (fun d e => by cases e; exact hrcv) (ht op (.head _)) (hi op (.head _)) ho
    | cons op2 ops =>
      cases h2 with
      | cons h3 h4 =>
      rename_i k2 ks
      cases htr with
      | on _ _ _ _ _ ho htr =>
      obtain ⟨m, u, hm, hrun⟩ := hop_go adv (n + 4 * (op2 :: ops).length) hr hfa hro hfc h1 hv (dst := none)
        (fun d e => by cases e) (ht op (.head _)) (hi op (.head _)) ho
      obtain ⟨_, _, _, he, hk⟩ := hop_all hr hfa hro hfc h1 hv hrun
      simp only [Option.getD_none] at he
      rw [← he] at htr
      obtain ⟨n', v', hn, hrun2⟩ := ih (m - 4 * (op2 :: ops).length) (hk.contracts hro (by intro _ h; cases h))
        (hk.contracts hfc (by intro _ h; cases h)) ((List.Forall₂.cons h3 h4).imp fun _ _ hh => hh.keep hk) (hv.run hrun)
        (fun op' ho => ht op' (.tail _ ho)) (fun op' ho => hi op' (.tail _ ho)) htr
      rw [show m - 4 * (op2 :: ops).length + 4 * (op2 :: ops).length = m by omega] at hrun2
      refine ⟨n', v', by omega, ?_⟩
      simp only [Router.hopMsgs, List.map_cons]
      rw [show n + 4 * (op :: op2 :: ops).length = n + 4 * (op2 :: ops).length + 4 by
        simp only [List.length_cons]; omega, ← List.singleton_append (l := List.map _ _), run_append]
      exact ⟨m, u, hrun, hrun2⟩

end Halo
