import Verif.Props.Impact
import Verif.Props.Route
/-!
# C90: quotes are monotone

C05 and C58 say that a pair quotes no less for a larger offer and no more for the same offer against worse reserves. Here the
same for reverse quotes, for commissions, for the quotes of whole routes in both directions, and for the average price.
-/

namespace Halo
open _root_.Halo.Spec

theorem quoteOf_floor {o a y : Nat} (hb : grossNeeded y < a) : quoteOf o a y = o * grossNeeded y / (a - grossNeeded y) := by
  unfold quoteOf
  generalize grossNeeded y = g at *
  obtain ⟨d, rfl⟩ := Nat.exists_eq_add_of_lt hb
  have e : g + d + 1 - g = d + 1 := by omega
  have e2 : o * (g + d + 1) = o * g + o * (d + 1) := by ring
  rw [e, e2, Nat.add_mul_div_right _ _ (by omega), Nat.add_sub_cancel]

theorem grossNeeded_mono {y y' : Nat} (h : y ≤ y') : grossNeeded y ≤ grossNeeded y' := by
  unfold grossNeeded
  exact Nat.div_le_div_right (Nat.mul_le_mul_right _ h)

/-- **C90.** Asking for more, or against less of the asked or more of the offered asset, is never quoted cheaper, nor is the
commission that the quote names any lower. -/
theorem C90_reverse (o a y q s c o' a' y' q' s' c' : Nat) (h : Quoted o a y q s c) (h' : Quoted o' a' y' q' s' c')
    (ho : o ≤ o') (ha : a' ≤ a) (hy : y ≤ y') : q ≤ q' ∧ c ≤ c' := by
  obtain ⟨b0, b1, b2, h⟩ := h
  obtain ⟨b0', b1', b2', h'⟩ := h'
  rw [computeOfferAmount_ok_iff b0 b1 b2] at h
  rw [computeOfferAmount_ok_iff b0' b1' b2'] at h'
  obtain ⟨_, hb, _, _, _, rfl, _, rfl⟩ := h
  obtain ⟨_, hb', _, _, _, rfl, _, rfl⟩ := h'
  have hm := grossNeeded_mono hy
  refine ⟨?_, by omega⟩
  rw [quoteOf_floor hb, quoteOf_floor hb']
  calc o * grossNeeded y / (a - grossNeeded y) ≤ o' * grossNeeded y' / (a - grossNeeded y) :=
        Nat.div_le_div_right (Nat.mul_le_mul ho hm)
    _ ≤ _ := Nat.div_le_div_left (by omega) (by omega)

example : ∃ o a y q s c o' a' y' q' s' c', Quoted o a y q s c ∧ Quoted o' a' y' q' s' c' ∧ o < o' ∧ a' < a ∧ y < y' := by
  refine ⟨10000, 20000, 1813, 999, 180, 5, 11000, 19000, 1900, 1225, 210, 5, quoted_example,
    ⟨by norm_num, by norm_num, by norm_num, ?_⟩, by norm_num⟩
  rw [computeOfferAmount_ok_iff (by norm_num) (by norm_num) (by norm_num)]
  norm_num [quoteOf, grossNeeded, invC, DF]

/-- **C90.** Nor does a larger offer pay a lower commission. -/
theorem C90_commission (o a x r s c o' a' x' r' s' c' : Nat) (h : Priced o a x r s c) (h' : Priced o' a' x' r' s' c')
    (ho : o' ≤ o) (ha : a ≤ a') (hx : x ≤ x') : r ≤ r' ∧ c ≤ c' := by
  obtain ⟨h1, e1, e2, _⟩ := h.form
  obtain ⟨h1', e1', e2', _⟩ := h'.form
  have g1 := gross_mono (a := a) h1 hx
  have g2 := gross_mono_ask (x := x') h1 ha
  have g3 := gross_anti_offer (a := a') (x := x') h1' ho
  omega

/-- **C90.** The average price does not improve with the size of the offer: what the larger of two offers returns per unit is at
most what the smaller returns per unit, up to one unit of the smaller return and two units of the larger. -/
theorem C90_average (o a x₁ x₂ r₁ s₁ c₁ r₂ s₂ c₂ : Nat) (h₁ : Priced o a x₁ r₁ s₁ c₁) (h₂ : Priced o a x₂ r₂ s₂ c₂)
    (hx : x₁ ≤ x₂) : r₂ * x₁ ≤ (r₁ + 1) * x₂ + 2 * x₁ := by
  obtain ⟨ho, _, e1, _⟩ := h₁.form
  obtain ⟨_, _, e2, _⟩ := h₂.form
  rcases Nat.eq_zero_or_pos x₁ with rfl | hpos
  · simp
  have f1 : a * x₁ < (grossOf o a x₁ + 1) * (o + x₁) := by
    have := floor_le_gross (o := o) (a := a) (x := x₁) (by omega)
    exact (Nat.div_lt_iff_lt_mul (by omega)).mp (by omega)
  have f2 : grossOf o a x₂ * (o + x₂) ≤ a * x₂ + (o + x₂) := by
    have h := gross_le_floor_succ (o := o) (a := a) (x := x₂) (by omega)
    have h3 := Nat.div_mul_le_self (a * x₂) (o + x₂)
    have h4 := Nat.mul_le_mul_right (o + x₂) h
    generalize a * x₂ / (o + x₂) = d at *
    nlinarith
  generalize grossOf o a x₁ = g₁ at *
  generalize grossOf o a x₂ = g₂ at *
  -- `g₂ * x₁ ≤ (g₁ + 1) * x₂ + x₁`
  have key : g₂ * x₁ ≤ (g₁ + 1) * x₂ + x₁ := by
    have k1 : g₂ * x₁ * (o + x₂) ≤ ((g₁ + 1) * x₂ + x₁) * (o + x₂) := by
      calc g₂ * x₁ * (o + x₂) = g₂ * (o + x₂) * x₁ := by ring
        _ ≤ (a * x₂ + (o + x₂)) * x₁ := Nat.mul_le_mul_right _ f2
        _ = a * x₁ * x₂ + x₁ * (o + x₂) := by ring
        _ ≤ (g₁ + 1) * (o + x₁) * x₂ + x₁ * (o + x₂) := by
            have := Nat.mul_le_mul_right x₂ f1.le
            omega
        _ ≤ (g₁ + 1) * (o + x₂) * x₂ + x₁ * (o + x₂) := by
            have := Nat.mul_le_mul_right x₂ (Nat.mul_le_mul_left (g₁ + 1) (show o + x₁ ≤ o + x₂ by omega))
            omega
        _ = _ := by ring
    exact Nat.le_of_mul_le_mul_right k1 (by omega)
  have e1' : 997 * g₁ ≤ 1000 * r₁ := by omega
  have e2' : 1000 * r₂ ≤ 997 * g₂ + 1000 := by omega
  have a1 := Nat.mul_le_mul_right x₂ e1'
  have a2 := Nat.mul_le_mul_right x₁ e2'
  nlinarith

example : ∃ o a x₁ x₂ r₁ s₁ c₁ r₂ s₂ c₂, Priced o a x₁ r₁ s₁ c₁ ∧ Priced o a x₂ r₂ s₂ c₂ ∧ x₁ < x₂ ∧
    (r₁ + 1) * x₂ + 2 * x₁ < 2 * (r₂ * x₁) := by
  refine ⟨10000, 20000, 1000, 2000, 1813, 182, 5, 3324, 667, 9, priced_example,
    ⟨by norm_num, by norm_num, by norm_num, ?_⟩, by norm_num, by norm_num⟩
  rw [computeSwap_ok_iff (by norm_num) (by norm_num) (by norm_num)]
  norm_num [grossOf, idealOf, DF]

/-! ## Queries of a pair and of the router -/

/-- **C90** for the query: if between two states a pair's reserve of the offered asset grew and its reserve of the asked asset
fell, then to get as much or more costs as much or more. -/
theorem C90_reverse_query {c : Chain} (hc : c.Lawful) {w v : World} (hw : Reachable c w) (hv : Reachable c v) {k : PairSite}
    (hk : k.Sound c w) (hk' : k.Sound c v) {i j : AssetInfo} (hd : k.Dir i j) (ho : held w i k.a ≤ held v i k.a)
    (ha : held v j k.a ≤ held w j k.a) {q q' : Querier} {y y' : Nat} (hy : y ≤ y') (hy' : y' < 2 ^ 128) {quote quote' : SimResp}
    (h : (querier c q w).reverseSimulate k.a ⟨j, y⟩ = .ok quote)
    (h' : (querier c q' v).reverseSimulate k.a ⟨j, y'⟩ = .ok quote') :
    quote.amount ≤ quote'.amount ∧ quote.commission ≤ quote'.commission :=
  C90_reverse _ _ _ _ _ _ _ _ _ _ _ _ (reverse_price hc hw hk hd (by omega) h) (reverse_price hc hv hk' hd hy' h') ho ha hy

/-- Each hop of the route is a well-behaved pair that the factory (in state `fs`) names. -/
def Hops (c : Chain) (w : World) (fs : Factory.State) (ops : List SwapOp) (ks : List PairSite) : Prop :=
  List.Forall₂ (fun op k => k.Sound c w ∧ k.Dir op.offer op.ask ∧
      ∀ info, Factory.queryPair c.api fs (op.offer, op.ask) = .ok info → info.contractAddr = k.a) ops ks

/-- Every pair of the route has as much or more of what is sold to it in `v` as in `w`, and as much or less of what is bought. -/
def Against (w v : World) (ops : List SwapOp) (ks : List PairSite) : Prop :=
  List.Forall₂ (fun (op : SwapOp) (k : PairSite) => held w op.offer k.a ≤ held v op.offer k.a ∧
      held v op.ask k.a ≤ held w op.ask k.a) ops ks

theorem Against.refl {c : Chain} {w : World} {fs : Factory.State} {ops : List SwapOp} {ks : List PairSite} (h : Hops c w fs ops ks) :
    Against w w ops ks := by
  unfold Hops at h
  induction h with
  | nil => exact .nil
  | cons _ _ ih => exact .cons ⟨Nat.le_refl _, Nat.le_refl _⟩ ih

section
variable {c : Chain} (hc : c.Lawful) {w v : World} (hw : Reachable c w) (hv : Reachable c v) {f : Addr} {fadm fadm' : Option Addr}
    {s : Router.State} {fs fs' : Factory.State} {ops : List SwapOp} {ks : List PairSite}
    (hfa : c.api.human s.haloFactory = some f) (hf : w.contracts f = some ⟨fadm, .factory fs⟩)
    (hf' : v.contracts f = some ⟨fadm', .factory fs'⟩) (hks : Hops c w fs ops ks) (hks' : Hops c v fs' ops ks)
    (hag : Against w v ops ks) {q q' : Querier}
include hc hw hv hfa hf hf' hks hks' hag

/-- **C90** for the router's quotes: a smaller offer for the same route, or the same at a time when its pairs have more of what
is sold to them and less of what is bought from them, is never quoted more. (`q`, `q'` are what other contracts answer.) -/
theorem C90_route {x x' z z' : Nat} (hx : x' ≤ x) (hx2 : x < 2 ^ 128)
    (h : Router.simulateSwapOperations c.api (querier c q w) s x ops = .ok z)
    (h' : Router.simulateSwapOperations c.api (querier c q' v) s x' ops = .ok z') : z' ≤ z := by
  have hfr := hc.resolve_human hfa
  simp only [Router.simulateSwapOperations, bind_eq_ok, humanize_eq_ok, require_eq_ok, hfa, Option.some.injEq] at h h'
  obtain ⟨_, rfl, _, hne, h⟩ := h
  obtain ⟨_, rfl, _, hne', h'⟩ := h'
  clear hne hne'
  unfold Hops at hks hks'
  unfold Against at hag
  induction hks generalizing x x' with
  | nil =>
    simp only [Router.simulateLoop, Except.ok.injEq] at h h'
    omega
  | cons h1 _ ih =>
    rename_i op k ops ks _
    cases hks' with | cons h1' hks' =>
    cases hag with | cons hg hag =>
    simp only [Router.simulateLoop, bind_eq_ok] at h h'
    obtain ⟨info, hi, r, hr, h⟩ := h
    obtain ⟨info', hi', r', hr', h'⟩ := h'
    rw [h1.2.2 _ (pairInfo_eq hf hfr hi)] at hr
    rw [h1'.2.2 _ (pairInfo_eq hf' hfr hi')] at hr'
    obtain ⟨b0, b1, hp⟩ := quote_price' hc hw h1.1 h1.2.1 hr
    obtain ⟨b0', b1', hp'⟩ := quote_price' hc hv h1'.1 h1'.2.1 hr'
    have P : Priced _ _ x _ _ _ := ⟨b0, b1, hx2, hp⟩
    have hle := C90_commission _ _ _ _ _ _ _ _ _ _ _ _ (⟨b0', b1', by omega, hp'⟩ : Priced _ _ x' _ _ _) P hg.1 hg.2 hx
    have hB : B128 = 2 ^ 128 := rfl
    have := C02_payable _ _ _ _ _ _ P
    exact ih hks' hag hle.1 (by omega) h h'

/-- **C90** for the router's reverse quotes: getting more out of the same route, or the same at a time when its pairs have more of
what is sold to them and less of what is bought from them, never costs less. -/
theorem C90_reverse_route {y y' x x' : Nat} (hy : y ≤ y') (hy2 : y' < 2 ^ 128)
    (h : Router.reverseSimulateSwapOperations c.api (querier c q w) s y ops = .ok x)
    (h' : Router.reverseSimulateSwapOperations c.api (querier c q' v) s y' ops = .ok x') : x ≤ x' := by
  have hfr := hc.resolve_human hfa
  simp only [Router.reverseSimulateSwapOperations, bind_eq_ok, require_eq_ok] at h h'
  obtain ⟨_, hne, h⟩ := h
  obtain ⟨_, hne', h'⟩ := h'
  clear hne hne'
  unfold Hops at hks hks'
  unfold Against at hag
  rw [← List.forall₂_reverse_iff] at hks hks' hag
  generalize ops.reverse = ro at *
  generalize ks.reverse = rk at *
  induction hks generalizing y y' with
  | nil =>
    simp only [Router.reverseSimulateLoop, Except.ok.injEq] at h h'
    omega
  | cons h1 _ ih =>
    rename_i op k ops ks _
    cases hks' with | cons h1' hks' =>
    cases hag with | cons hg hag =>
    simp only [Router.reverseSimulateLoop, bind_eq_ok, humanize_eq_ok, hfa, Option.some.injEq] at h h'
    obtain ⟨_, rfl, a, ha, h⟩ := h
    obtain ⟨_, rfl, a', ha', h'⟩ := h'
    split at ha <;> cases ha
    rename_i hx1
    split at ha' <;> cases ha'
    rename_i hx1'
    simp only [Router.reverseSimulateReturnAmount, bind_eq_ok, pure_eq_ok] at hx1 hx1'
    obtain ⟨info, hi, r, hr, rfl⟩ := hx1
    obtain ⟨info', hi', r', hr', rfl⟩ := hx1'
    rw [h1.2.2 _ (pairInfo_eq hf hfr hi)] at hr
    rw [h1'.2.2 _ (pairInfo_eq hf' hfr hi')] at hr'
    have Q := reverse_price hc hw h1.1 h1.2.1 (by omega) hr
    have Q' := reverse_price hc hv h1'.1 h1'.2.1 hy2 hr'
    have hle := C90_reverse _ _ _ _ _ _ _ _ _ _ _ _ Q Q' hg.1 hg.2 hy
    have hlt : r'.amount < 2 ^ 128 := by
      rw [Q'.form.2.2]
      exact ((computeOfferAmount_ok_iff Q'.1 Q'.2.1 hy2).mp Q'.2.2.2).2.2.1
    exact ih hle.1 hlt h h' hks' hag

end

namespace Demo

/-- 1000 A over B are quoted 3060 C, 973 A are quoted 2995. -/
example : 2995 ≤ 3060 :=
  C90_route lawful deployed_reachable deployed_reachable (f := fac) (s := ⟨fac⟩) rfl (facState_eq (a := fac) (by decide +kernel))
    (facState_eq (a := fac) (by decide +kernel)) viaB_pairs viaB_pairs (Against.refl viaB_pairs) (q := q 0 0 0) (q' := q 0 0 0)
    (x := 1000) (x' := 973) (by decide) (by decide) (val_eq (by decide +kernel)) (val_eq (by decide +kernel))

/-- 3000 C over B cost 973 A, 3060 cost 999. -/
example : 973 ≤ 999 :=
  C90_reverse_route lawful deployed_reachable deployed_reachable (f := fac) (s := ⟨fac⟩) rfl
    (facState_eq (a := fac) (by decide +kernel)) (facState_eq (a := fac) (by decide +kernel)) viaB_pairs viaB_pairs
    (Against.refl viaB_pairs) (q := q 0 0 0) (q' := q 0 0 0) (y := 3000) (y' := 3060) (by decide) (by decide)
    (val_eq (by decide +kernel)) (val_eq (by decide +kernel))

/-- 1813 B cost 999 A, 1900 cost 1052. -/
example := C90_reverse_query lawful deployed_reachable deployed_reachable sound_AB sound_AB (i := .token tA) (j := .token tB)
  (.inl ⟨rfl, rfl⟩) (Nat.le_refl _) (Nat.le_refl _) (q := q 0 0 0) (q' := q 0 0 0) (y := 1813) (y' := 1900) (by decide) (by decide)
  (quote := ⟨999, 180, 5⟩) (quote' := ⟨1052, 199, 5⟩) (val_eq (by decide +kernel)) (val_eq (by decide +kernel))

end Demo
end Halo
