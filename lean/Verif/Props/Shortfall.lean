import Verif.Props.Lens
/-! # C135: how far the quoted cost of a route may fall short -/

namespace Halo
open _root_.Halo.Spec

/-- What may be missing: of each hop, its price at the margin, three units and `1/10^18` of the reserve, at the price of the hops after it. -/
def short : List (Nat × Nat) → ℚ
  | [] => 0
  | p :: l => (997 / 1000 * (p.2 : ℚ) / p.1 + 3 + p.2 / 10 ^ 18) * (asks l / bids l) + short l

namespace ShortL
open MergeL LensL

theorem needed_ge (y : Nat) : y ≤ grossNeeded y := by
  unfold grossNeeded
  rw [Nat.le_div_iff_mul_le (by norm_num [DF])]
  exact Nat.mul_le_mul_left _ (by norm_num [DF, invC])

theorem one {o a y x : Nat} {d : ℚ} (ho : o ≠ 0) (hb : grossNeeded y < a) (hx : (quoteOf o a y : ℚ) - x ≤ d) (hd : 0 ≤ d) :
    (y : ℚ) - payout o a x ≤ 997 / 1000 * (a : ℚ) / o * (d + 1) + 3 + a / 10 ^ 18 := by
  have fit : ∀ x, payout o a x ≤ a := by
    intro x
    have := grossOf_le o a x
    unfold payout
    rw [gross_eq]
    omega
  have ho' : (0 : ℚ) < o := by exact_mod_cast Nat.pos_of_ne_zero ho
  have h1 := (abs_le.mp (above ho (fit (quoteOf o a y + 1)))).2
  have h2 := (abs_le.mp (above ho (fit x))).1
  have h3 := (quote_succ_ge (y := y) ho hb).1
  have h4 : y ≤ payout o a (quoteOf o a y + 1) + 1 + y / DF := by
    unfold payout
    rw [gross_eq]
    exact h3
  have h5 : ((y / DF : Nat) : ℚ) ≤ a / 10 ^ 18 := by
    have : y ≤ a := (needed_ge y).trans hb.le
    have e1 : y / DF * 10 ^ 18 ≤ a := by
      have := Nat.div_mul_le_self y DF
      have hD : DF = 10 ^ 18 := by norm_num [DF]
      rw [hD] at this ⊢
      omega
    rw [le_div_iff₀ (by norm_num)]
    exact_mod_cast e1
  have h6 : (y : ℚ) ≤ payout o a (quoteOf o a y + 1) + 1 + ((y / DF : Nat) : ℚ) := by exact_mod_cast h4
  have h7 : 997 / 1000 * ((a : ℚ) * ((quoteOf o a y + 1 : Nat) : ℚ) / (o + ((quoteOf o a y + 1 : Nat) : ℚ))) - 997 / 1000 * ((a : ℚ) * x / (o + x)) ≤
      997 / 1000 * (a : ℚ) / o * (d + 1) := by
    have hs := smooth (n := 997 / 1000 * (a : ℚ)) (d := o) (c := 1) (z := ((quoteOf o a y + 1 : Nat) : ℚ)) (z' := x) (by positivity) ho' (by norm_num)
      (Nat.cast_nonneg _) (Nat.cast_nonneg _)
    have hk : (0 : ℚ) ≤ 997 / 1000 * (a : ℚ) / o := by positivity
    have hq : ((quoteOf o a y + 1 : Nat) : ℚ) - x ≤ d + 1 := by push_cast; linarith
    have hq0 : (0 : ℚ) ≤ ((quoteOf o a y + 1 : Nat) : ℚ) := Nat.cast_nonneg _
    generalize ((quoteOf o a y + 1 : Nat) : ℚ) = q at *
    by_cases hqx : q ≤ x
    · have hx0 : (0 : ℚ) ≤ x := Nat.cast_nonneg _
      have h8 : (a : ℚ) * q / (o + q) ≤ a * x / (o + x) := by
        rw [div_le_div_iff₀ (by positivity) (by positivity)]
        have := mul_le_mul_of_nonneg_left hqx (show (0 : ℚ) ≤ a * o by positivity)
        nlinarith
      have h9 : 0 ≤ 997 / 1000 * (a : ℚ) / o * (d + 1) := mul_nonneg hk (by linarith)
      linarith
    · rw [abs_of_pos (a := q - x) (by linarith [not_le.mp hqx])] at hs
      have := (abs_le.mp hs).2
      have h8 := mul_le_mul_of_nonneg_left hq hk
      simp only [one_mul, mul_assoc, mul_div_assoc] at this h8 ⊢
      linarith
  linarith

theorem back_append {api : Api} {Q : Querier} {s : Router.State} : ∀ {l1 l2 : List SwapOp} {y x : Nat},
    Router.reverseSimulateLoop api Q s (l1 ++ l2) y = .ok x →
    ∃ a, Router.reverseSimulateLoop api Q s l1 y = .ok a ∧ Router.reverseSimulateLoop api Q s l2 a = .ok x := by
  intro l1
  induction l1 with
  | nil => intro l2 y x h; exact ⟨y, rfl, h⟩
  | cons op l1 ih =>
    intro l2 y x h
    simp only [List.cons_append, Router.reverseSimulateLoop, bind_eq_ok] at h
    obtain ⟨f, h1, a, h2, h3⟩ := h
    obtain ⟨b, h4, h5⟩ := ih h3
    refine ⟨b, ?_, h5⟩
    simp only [Router.reverseSimulateLoop, bind_eq_ok]
    exact ⟨f, h1, a, h2, h4⟩

/-- What is missing at the beginning, and what every hop misses, costs at the end. -/
theorem fall {c : Chain} (hc : c.Lawful) {w : World} (hw : Reachable c w) {f : Addr} {fadm : Option Addr} {s : Router.State} {fs : Factory.State}
    (hfa : c.api.human s.haloFactory = some f) (hf : w.contracts f = some ⟨fadm, .factory fs⟩) {q : Querier} :
    ∀ {ops : List SwapOp} {ks : List PairSite} {y x : Nat}, List.Forall₂ (fun op k => k.Sound c w ∧
      k.Dir op.offer op.ask ∧ ∀ info, Factory.queryPair c.api fs (op.offer, op.ask) = .ok info → info.contractAddr = k.a)
      ops ks → y < 2 ^ 128 → Router.reverseSimulateLoop c.api (querier c q w) s ops.reverse y = .ok x →
      x < 2 ^ 128 ∧ ∀ x' z (d : ℚ), Quote w ops ks x' z → (x : ℚ) - x' ≤ d → 0 ≤ d →
        (y : ℚ) - z ≤ asks (met w ops ks) / bids (met w ops ks) * d + short (met w ops ks) := by
  have hfr := hc.resolve_human hfa
  intro ops
  induction ops with
  | nil =>
    intro ks y x hks hy h
    cases hks
    simp only [List.reverse_nil, Router.reverseSimulateLoop, Except.ok.injEq] at h
    subst h
    refine ⟨hy, fun x' z d hq hx _ => ?_⟩
    cases hq
    simp [met, asks, bids, short]
    linarith
  | cons op ops ih =>
    intro ks y x hks hy h
    cases hks with
    | cons h1 h2 =>
      rename_i k ks
      rw [List.reverse_cons] at h
      obtain ⟨a, ha, hb⟩ := back_append h
      obtain ⟨hlt, hle⟩ := ih h2 hy ha
      simp only [Router.reverseSimulateLoop, bind_eq_ok, humanize_eq_ok] at hb
      obtain ⟨f', hf', x1, hx1, hb⟩ := hb
      rw [hfa] at hf'
      cases hf'
      simp only [Except.ok.injEq] at hb
      subst hb
      split at hx1
      · rename_i x2 hx2
        cases hx1
        simp only [Router.reverseSimulateReturnAmount, bind_eq_ok, pure_eq_ok] at hx2
        obtain ⟨info, hi, rq, hrq, rfl⟩ := hx2
        rw [h1.2.2 _ (pairInfo_eq hf hfr hi)] at hrq
        have hQ := reverse_price hc hw h1.1 h1.2.1 hlt hrq
        obtain ⟨ho, hbb, hqa⟩ := hQ.form
        have hxlt : rq.amount < 2 ^ 128 := by
          rw [hqa]
          exact ((computeOfferAmount_ok_iff hQ.1 hQ.2.1 hlt).mp hQ.2.2.2).2.2.1
        refine ⟨hxlt, fun x' z d hq hx hd => ?_⟩
        obtain ⟨r, sp, cm, g1, g2⟩ := hq
        obtain ⟨_, _, hr⟩ := computeSwap_form g1
        have hr' : r = payout (held w op.offer k.a) (held w op.ask k.a) x' := by rw [hr]; unfold payout; rw [gross_eq]
        have ho' : (0 : ℚ) < held w op.offer k.a := by exact_mod_cast Nat.pos_of_ne_zero ho
        have h3 := one (x := x') (d := d) ho hbb (by rw [← hqa]; exact hx) hd
        rw [← hr'] at h3
        have hbp := bids_pos (nonzero g2)
        have h4 := hle _ _ _ g2 h3 (by positivity)
        have hm : met w (op :: ops) (k :: ks) = (held w op.offer k.a, held w op.ask k.a) :: met w ops ks := rfl
        rw [hm, asks_cons, bids_cons]
        simp only [short]
        refine h4.trans (le_of_eq ?_)
        generalize met w ops ks = l at *
        generalize (held w op.offer k.a : ℚ) = o at *
        generalize (held w op.ask k.a : ℚ) = b at *
        field_simp
        ring
      · cases hx1

end ShortL
open ShortL

/-- **C135.** The router is asked what a route costs for `y` and answers `x`; whoever then sends at most `d` less than `x` over the route (in the same state) gets at least `y`, less
`d` times the route's price at the margin and less `short`, which is made up of a price at the margin and a few units for every hop. -/
theorem C135_reverse_route {c : Chain} (hc : c.Lawful) {w w' : World} (hw : Reachable c w) {S rou f t : Addr}
    {adm fadm : Option Addr} {s : Router.State} {fs : Factory.State} {ops : List SwapOp} {ks : List PairSite}
    {first last : SwapOp} {dst : Option Str} (h : OnRoute c w S rou f t adm fadm s fs ops ks first last dst) {q : Querier} {y x x' d : Nat}
    (hy : y < 2 ^ 128) (hrev : Router.reverseSimulateSwapOperations c.api (querier c q w) s y ops = .ok x) (hx : x ≤ x' + d)
    {mn : Option Nat} {adv : Adv} {gas : Nat}
    (hrun : runTx c adv gas w S (.exec t (.send rou x' (.executeSwapOperations ops mn dst)) []) = .ok w') :
    ∃ z : Nat, (y : ℚ) ≤ z + asks (met w ops ks) / bids (met w ops ks) * d + short (met w ops ks) ∧ ∀ i, held w' i (dst.getD S) =
      held w i (dst.getD S) - (if dst.getD S = S ∧ i = .token t then x' else 0) + (if i = last.ask then z else 0) := by
  obtain ⟨z, hq, _, hz⟩ := route_effect hc hw h hrun
  simp only [Router.reverseSimulateSwapOperations, bind_eq_ok, require_eq_ok] at hrev
  obtain ⟨_, _, hrev⟩ := hrev
  have hx' : (x : ℚ) ≤ x' + d := by exact_mod_cast hx
  have := (fall hc hw h.names h.factory h.pairs hy hrev).2 x' z d hq (by linarith) (Nat.cast_nonneg _)
  exact ⟨z, by linarith, hz⟩

/-- **C135.** So a minimum that allows for this does not stop the transaction: whoever sends what the router said, with a minimum of `y` less `short`, gets through if the pairs of the route accept
the hops and the factory and the receiver are in order. -/
theorem C135_minimum {c : Chain} (hc : c.Lawful) {w : World} (hw : Reachable c w) {S rou f t : Addr}
    {adm fadm : Option Addr} {s : Router.State} {fs : Factory.State} {ops : List SwapOp} {ks : List PairSite}
    {first last : SwapOp} {dst : Option Str} (h : OnRoute c w S rou f t adm fadm s fs ops ks first last dst) {q : Querier} {y x m : Nat}
    (hy : y < 2 ^ 128) (hrev : Router.reverseSimulateSwapOperations c.api (querier c q w) s y ops = .ok x)
    (hm : (m : ℚ) + short (met w ops ks) ≤ y) (hfit : ∀ k ∈ ks, Fits k w)
    (hbig : ∀ d, last.ask = .native d → ∀ k ∈ ks, w.bal d (dst.getD S) + w.bal d k.a < 2 ^ 128) {adv : Adv}
    (hrun : ∃ gas w', runTx c adv gas w S (.exec t (.send rou x (.executeSwapOperations ops none dst)) []) = .ok w') :
    ∃ gas w', runTx c adv gas w S (.exec t (.send rou x (.executeSwapOperations ops (some m) dst)) []) = .ok w' := by
  obtain ⟨h0, hb, hd, z, hz, _⟩ := (C60_route_iff hc hw h hfit none (fun _ _ h => nomatch h) x adv q).mp hrun
  refine (C60_route_iff hc hw h hfit (some m) (fun _ d _ => hbig d) x adv q).mpr ⟨h0, hb, hd, z, hz, ?_⟩
  rintro _ ⟨⟩
  obtain ⟨gas, w', hrun⟩ := hrun
  simp only [Router.reverseSimulateSwapOperations, bind_eq_ok, require_eq_ok] at hrev
  obtain ⟨_, _, hrev⟩ := hrev
  have hl := (legs_of hc hw h.factory (hc.resolve_human h.names) h.pairs hfit (lt_of_le_of_lt hb (held_lt hw.tokensOk t S))).mp hz
  have := (fall hc hw h.names h.factory h.pairs hy hrev).2 x z 0 hl.quote (by linarith) (le_refl _)
  have e : (m : ℚ) ≤ z := by linarith
  exact_mod_cast e

/-! ## Examples -/

namespace Demo

/-- 3000 C are said to cost 973 A, which buy 2995 C; `short` is 14.94. -/
theorem met_viaB : met deployed viaB [siteAB, siteBC] = [(10000, 20000), (10000, 20000)] := by decide +kernel
def cheap : CosmosMsg := .exec tA (.send rou 973 (.executeSwapOperations viaB none (some user2))) []
def cheapened : World := worldOf (runTx chain idle 20 deployed user cheap)
theorem cheapened_run : runTx chain idle 20 deployed user cheap = .ok cheapened := worldOf_eq (by decide +kernel)
example := C135_reverse_route lawful deployed_reachable viaB_route (q := q 0 0 0) (y := 3000) (x := 973) (x' := 973) (d := 0) (by decide)
  (val_eq (by decide +kernel)) (by decide) cheapened_run
example : held cheapened (.token tC) user2 = held deployed (.token tC) user2 + 2995 := by decide +kernel
example : short (met deployed viaB [siteAB, siteBC]) < 15 := by rw [met_viaB]; norm_num [short, asks, bids]
example := C135_minimum lawful deployed_reachable viaB_route (q := q 0 0 0) (y := 3000) (x := 973) (m := 2985) (by decide)
  (val_eq (by decide +kernel)) (by rw [met_viaB]; norm_num [short, asks, bids]) viaB_fits (fun _ h => nomatch h) (adv := idle) ⟨20, _, cheapened_run⟩
end Demo

end Halo
