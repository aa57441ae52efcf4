import Verif.Props.Merge
import Verif.Props.Agent
/-! # C134: a route is a pool -/

namespace Halo
open _root_.Halo.Spec

/-- The reserves that a route meets: of each hop, what the pair has of the asset it is offered and of the one it is asked for. -/
def met (w : World) (ops : List SwapOp) (ks : List PairSite) : List (Nat × Nat) :=
  List.zipWith (fun op k => (held w op.offer k.a, held w op.ask k.a)) ops ks
/-- The product of the reserves asked for, each less the fee. -/
def asks (l : List (Nat × Nat)) : ℚ := (l.map fun p => 997 / 1000 * (p.2 : ℚ)).prod
/-- The product of the reserves offered to. -/
def bids (l : List (Nat × Nat)) : ℚ := (l.map fun p => (p.1 : ℚ)).prod
/-- How the hops' price impacts add up: of each hop, the reserves asked for before it times the reserves offered to after it. -/
def bend : List (Nat × Nat) → ℚ
  | [] => 0
  | p :: l => bids l + 997 / 1000 * (p.2 : ℚ) * bend l
/-- The rounding: one unit per hop, at the price of the hops after it. -/
def grain : List (Nat × Nat) → ℚ
  | [] => 0
  | _ :: l => asks l / bids l + grain l

namespace LensL
open MergeL

theorem asks_cons (p : Nat × Nat) (l : List (Nat × Nat)) : asks (p :: l) = 997 / 1000 * (p.2 : ℚ) * asks l := by simp [asks]
theorem bids_cons (p : Nat × Nat) (l : List (Nat × Nat)) : bids (p :: l) = (p.1 : ℚ) * bids l := by simp [bids]

theorem asks_nonneg : ∀ l : List (Nat × Nat), 0 ≤ asks l
  | [] => by simp [asks]
  | p :: l => by
    have := asks_nonneg l
    rw [asks_cons]
    positivity

theorem bids_nonneg : ∀ l : List (Nat × Nat), 0 ≤ bids l
  | [] => by simp [bids]
  | p :: l => by
    have := bids_nonneg l
    rw [bids_cons]
    positivity

theorem bids_pos : ∀ {l : List (Nat × Nat)}, (∀ p ∈ l, p.1 ≠ 0) → 0 < bids l
  | [], _ => by simp [bids]
  | p :: l, h => by
    have h1 := bids_pos fun q hq => h q (List.mem_cons_of_mem _ hq)
    have h2 : (0 : ℚ) < p.1 := by exact_mod_cast Nat.pos_of_ne_zero (h p List.mem_cons_self)
    rw [bids_cons]
    positivity

theorem bend_nonneg : ∀ l : List (Nat × Nat), 0 ≤ bend l
  | [] => le_refl _
  | p :: l => by
    have h1 := bend_nonneg l
    have h2 := bids_nonneg l
    unfold bend
    positivity

/-- The ideal route is Lipschitz with its price at the margin. -/
theorem smooth {n d c z z' : ℚ} (hn : 0 ≤ n) (hd : 0 < d) (hc : 0 ≤ c) (hz : 0 ≤ z) (hz' : 0 ≤ z') :
    |n * z / (d + c * z) - n * z' / (d + c * z')| ≤ n / d * |z - z'| := by
  have h1 : 0 < d + c * z := by positivity
  have h2 : 0 < d + c * z' := by positivity
  have e : n * z / (d + c * z) - n * z' / (d + c * z') = n * d / ((d + c * z) * (d + c * z')) * (z - z') := by
    field_simp
    ring
  rw [e, abs_mul, abs_of_nonneg (by positivity)]
  refine mul_le_mul_of_nonneg_right ?_ (abs_nonneg _)
  rw [div_le_div_iff₀ (mul_pos h1 h2) hd]
  have h3 : d * d ≤ (d + c * z) * (d + c * z') :=
    mul_le_mul (le_add_of_nonneg_right (by positivity)) (le_add_of_nonneg_right (by positivity)) hd.le h1.le
  nlinarith

theorem nonzero {v : World} : ∀ {ops : List SwapOp} {ks : List PairSite} {x y : Nat}, Quote v ops ks x y → ∀ p ∈ met v ops ks, p.1 ≠ 0 := by
  intro ops
  induction ops with
  | nil => intro ks x y _ p hp; simp [met] at hp
  | cons op ops ih =>
    intro ks x y h
    cases ks with
    | nil => cases h
    | cons k ks =>
      obtain ⟨r, s, cm, h1, h2⟩ := h
      intro p hp
      simp only [met, List.zipWith_cons_cons, List.mem_cons] at hp
      rcases hp with rfl | hp
      · exact (computeSwap_form h1).1
      · exact ih h2 p hp

theorem close {v : World} : ∀ {ops : List SwapOp} {ks : List PairSite} {x y : Nat}, Quote v ops ks x y →
    |(y : ℚ) - asks (met v ops ks) * x / (bids (met v ops ks) + bend (met v ops ks) * x)| ≤ grain (met v ops ks) := by
  intro ops
  induction ops with
  | nil =>
    intro ks x y h
    cases ks with
    | nil => cases h; simp [met, asks, bids, bend, grain]
    | cons => cases h
  | cons op ops ih =>
    intro ks x y h
    cases ks with
    | nil => cases h
    | cons k ks =>
      obtain ⟨r, s, cm, h1, h2⟩ := h
      have ih := ih h2
      have hb := bids_pos (nonzero h2)
      have hn := asks_nonneg (met v ops ks)
      have hc := bend_nonneg (met v ops ks)
      obtain ⟨ho, _, hr⟩ := computeSwap_form h1
      have hr' : r = payout (held v op.offer k.a) (held v op.ask k.a) x := by rw [hr]; unfold payout; rw [gross_eq]
      have hga := grossOf_le (held v op.offer k.a) (held v op.ask k.a) x
      have hab := above ho (a := held v op.ask k.a) (x := x) (by rw [← hr']; omega)
      rw [← hr'] at hab
      have hm : met v (op :: ops) (k :: ks) = (held v op.offer k.a, held v op.ask k.a) :: met v ops ks := rfl
      rw [hm, asks_cons, bids_cons]
      simp only [bend, grain]
      have ho' : (0 : ℚ) < held v op.offer k.a := by exact_mod_cast Nat.pos_of_ne_zero ho
      generalize met v ops ks = l at *
      generalize held v op.offer k.a = o at *
      generalize held v op.ask k.a = a at *
      have hz : (0 : ℚ) ≤ 997 / 1000 * (a * x / (o + x)) := by positivity
      have hs := smooth hn hb hc (Nat.cast_nonneg r) hz
      have e : asks l * (997 / 1000 * ((a : ℚ) * x / (o + x))) / (bids l + bend l * (997 / 1000 * (a * x / (o + x)))) =
          997 / 1000 * a * asks l * x / (o * bids l + (bids l + 997 / 1000 * a * bend l) * x) := by
        have hox : (0 : ℚ) < o + x := by positivity
        have hd : (0 : ℚ) < o * bids l + (bids l + 997 / 1000 * a * bend l) * x := by positivity
        have e1 : bids l + bend l * (997 / 1000 * ((a : ℚ) * x / (o + x))) = (o * bids l + (bids l + 997 / 1000 * a * bend l) * x) / (o + x) := by
          rw [eq_div_iff hox.ne']
          field_simp
          ring
        rw [e1, div_div_eq_mul_div]
        congr 1
        field_simp
      rw [e] at hs
      have h3 : asks l / bids l * |(r : ℚ) - 997 / 1000 * (a * x / (o + x))| ≤ asks l / bids l * 1 :=
        mul_le_mul_of_nonneg_left hab (by positivity)
      rw [mul_one] at h3
      rw [abs_le] at *
      constructor <;> linarith [ih.1, ih.2, hs.1, hs.2]

end LensL
open LensL

/-- **C134.** A route over any number of pairs pays like a single pool without fee: for `x` its receiver gets `N * x / (D + C * x)`, up to the rounding `grain`, where `N` is the product of
the reserves asked for (each less 0.3%), `D` the product of the reserves offered to, and `C` the sum over the hops of the former before it times the latter after it. That is the pool with reserves
`D / C` and `N / C`. -/
theorem C134_route {c : Chain} (hc : c.Lawful) {w w' : World} (hw : Reachable c w) {S rou f t : Addr}
    {adm fadm : Option Addr} {s : Router.State} {fs : Factory.State} {ops : List SwapOp} {ks : List PairSite}
    {first last : SwapOp} {dst : Option Str} (h : OnRoute c w S rou f t adm fadm s fs ops ks first last dst)
    {mn : Option Nat} {x : Nat} {adv : Adv} {gas : Nat}
    (hrun : runTx c adv gas w S (.exec t (.send rou x (.executeSwapOperations ops mn dst)) []) = .ok w') :
    ∃ y : Nat, |(y : ℚ) - asks (met w ops ks) * x / (bids (met w ops ks) + bend (met w ops ks) * x)| ≤ grain (met w ops ks) ∧
      ∀ i, held w' i (dst.getD S) =
        held w i (dst.getD S) - (if dst.getD S = S ∧ i = .token t then x else 0) + (if i = last.ask then y else 0) := by
  obtain ⟨y, hq, _, hy⟩ := route_effect hc hw h hrun
  exact ⟨y, close hq, hy⟩

/-- **C134.** That pool is not deeper than the first pair of the route: `D / C` is at most its reserve. Nor does it have more to pay than the last pair: `N / C` is at most its
reserve, less 0.3%. -/
theorem C134_shallow (l : List (Nat × Nat)) (p q : Nat × Nat) (hp : l.head? = some p) (hq : l.getLast? = some q) :
    bids l ≤ p.1 * bend l ∧ asks l ≤ 997 / 1000 * q.2 * bend l := by
  constructor
  · cases l with
    | nil => cases hp
    | cons p' l =>
      cases hp
      rw [bids_cons]
      refine mul_le_mul_of_nonneg_left ?_ (Nat.cast_nonneg _)
      have := bend_nonneg l
      unfold bend
      have : 0 ≤ 997 / 1000 * (p.2 : ℚ) * bend l := by positivity
      linarith
  · clear hp
    induction l with
    | nil => cases hq
    | cons p' l ih =>
      cases l with
      | nil => cases hq; simp [asks, bend, bids]
      | cons p'' l =>
        rw [List.getLast?_cons_cons] at hq
        have ih := ih hq
        rw [asks_cons]
        have h1 := mul_le_mul_of_nonneg_left ih (show 0 ≤ 997 / 1000 * (p'.2 : ℚ) by positivity)
        have h2 : 0 ≤ 997 / 1000 * (q.2 : ℚ) * bids (p'' :: l) := mul_nonneg (by positivity) (bids_nonneg _)
        rw [show bend (p' :: p'' :: l) = bids (p'' :: l) + 997 / 1000 * (p'.2 : ℚ) * bend (p'' :: l) from rfl]
        linarith

/-- **C134.** So a detour does not pay: if a pair of the first and the last asset of the route has no worse a price, with the fee, than the whole route, and is no shallower
(for which it is enough that it has as much of the asset as the first pair), then a swap there pays no less than the route, up to rounding. -/
theorem C134_direct {c : Chain} (hc : c.Lawful) {w w' u : World} (hw : Reachable c w) {S rou f t : Addr}
    {adm fadm : Option Addr} {s : Router.State} {fs : Factory.State} {ops : List SwapOp} {ks : List PairSite}
    {first last : SwapOp} {dst : Option Str} (h : OnRoute c w S rou f t adm fadm s fs ops ks first last dst)
    {mn : Option Nat} {x : Nat} {adv : Adv} {gas : Nat}
    (hrun : runTx c adv gas w S (.exec t (.send rou x (.executeSwapOperations ops mn dst)) []) = .ok w')
    {m : PairSite} (hm : m.Sound c w) (hd : m.Dir (.token t) last.ask)
    (hprice : asks (met w ops ks) * held w (.token t) m.a ≤ 997 / 1000 * held w last.ask m.a * bids (met w ops ks))
    (hdeep : bids (met w ops ks) ≤ held w (.token t) m.a * bend (met w ops ks) ∨ ∃ p, (met w ops ks).head? = some p ∧ p.1 ≤ held w (.token t) m.a)
    {z : Sale} (hz : z.x = x) (hS : c.IsUser z.who) (hdst : z.dst ≠ some m.a) {adv' : Adv} {gas' : Nat}
    (hu : runTx c adv' gas' w z.who (z.msg m t) = .ok u) :
    ∃ y : Nat, (y : ℚ) ≤ (held w last.ask m.a - held u last.ask m.a) + (grain (met w ops ks) + 1) ∧
      ∀ i, held w' i (dst.getD S) =
        held w i (dst.getD S) - (if dst.getD S = S ∧ i = .token t then x else 0) + (if i = last.ask then y else 0) := by
  obtain ⟨y, hq, _, hy⟩ := route_effect hc hw h hrun
  refine ⟨y, ?_, hy⟩
  obtain ⟨_, _, ho, _, e2, e3⟩ := QueueL.sold hc hd hw hm hS hdst hu
  have hcl := (abs_le.mp (close hq)).2
  have hb := bids_pos (nonzero hq)
  have hc0 := bend_nonneg (met w ops ks)
  have hn := asks_nonneg (met w ops ks)
  have ho' : (0 : ℚ) < held w (.token t) m.a := by exact_mod_cast Nat.pos_of_ne_zero ho
  have hab := (abs_le.mp (MergeL.above ho e2)).1
  have hdeep' : bids (met w ops ks) ≤ held w (.token t) m.a * bend (met w ops ks) := by
    rcases hdeep with hh | ⟨p, hp, hle⟩
    · exact hh
    · obtain ⟨q, hq⟩ : ∃ q, (met w ops ks).getLast? = some q := by
        cases hl : met w ops ks with
        | nil => rw [hl] at hp; cases hp
        | cons a l => exact ⟨_, List.getLast?_eq_some_getLast (by simp)⟩
      have h1 := (C134_shallow _ p q hp hq).1
      have h2 : (p.1 : ℚ) ≤ held w (.token t) m.a := by exact_mod_cast hle
      exact h1.trans (mul_le_mul_of_nonneg_right h2 hc0)
  rw [e3, Nat.cast_sub e2]
  rw [hz] at hab ⊢
  generalize met w ops ks = l at *
  generalize held w (.token t) m.a = o at *
  generalize held w last.ask m.a = a at *
  have hx : (0 : ℚ) ≤ x := Nat.cast_nonneg _
  have key : asks l * x / (bids l + bend l * x) ≤ 997 / 1000 * (a * x / (o + x)) := by
    rw [← mul_div_assoc, div_le_div_iff₀ (by positivity) (by positivity)]
    have k1 := mul_le_mul_of_nonneg_right hprice hx
    -- the price of the route times `x`, where the pair is deeper
    have k2 : asks l * bids l ≤ 997 / 1000 * a * bids l * bend l := by
      have := mul_le_mul_of_nonneg_left hdeep' hn
      have := mul_le_mul_of_nonneg_right hprice hc0
      nlinarith
    have k3 : asks l ≤ 997 / 1000 * a * bend l := by
      refine le_of_mul_le_mul_right (a := bids l) ?_ hb
      linarith
    have k4 := mul_le_mul_of_nonneg_right k3 (mul_nonneg hx hx)
    nlinarith
  linarith

/-! ## Examples -/

namespace Demo

/-- From A over B to C, where there is also a pair of A and C. -/
def detour : List SwapOp := [⟨.token tA, .token tB⟩, ⟨.token tB, .token tC⟩]
theorem detour_route : OnRoute chain triangle user rou fac tA none none ⟨fac⟩ (facState triangle fac) detour
    [siteAB, siteBC] ⟨.token tA, .token tB⟩ ⟨.token tB, .token tC⟩ none :=
  ⟨isUser_user, rouAt_eq (p := (none, ⟨fac⟩)) (by decide +kernel), rfl, facState_eq (a := fac) (by decide +kernel),
    .cons ⟨triangle_sound _ (by simp), .inl ⟨rfl, rfl⟩, fun _ h => look_triangle h (by decide +kernel)⟩
      (.cons ⟨triangle_sound _ (by simp), .inl ⟨rfl, rfl⟩, fun _ h => look_triangle h (by decide +kernel)⟩ .nil),
    by decide +kernel, by decide +kernel, rfl, rfl, rfl, by decide +kernel, by decide +kernel, by decide +kernel⟩
def detourMsg : CosmosMsg := .exec tA (.send rou 1000 (.executeSwapOperations detour none none)) []
def detoured : World := worldOf (runTx chain idle 20 triangle user detourMsg)
theorem detoured_run : runTx chain idle 20 triangle user detourMsg = .ok detoured := worldOf_eq (by decide +kernel)
def directMsg : CosmosMsg := .exec tA (.send pAC 1000 (.swap none none none)) []
def directly : World := worldOf (runTx chain idle 20 triangle user directMsg)
theorem directly_run : runTx chain idle 20 triangle user directMsg = .ok directly := worldOf_eq (by decide +kernel)
theorem met_detour : met triangle detour [siteAB, siteBC] = [(10000, 20000), (10000, 20000)] := by decide +kernel

example := C134_route lawful triangle_reachable detour_route detoured_run
example := C134_direct lawful triangle_reachable detour_route detoured_run (m := siteAC) (triangle_sound _ (by simp)) (.inl ⟨rfl, rfl⟩)
  (by
    rw [met_detour, show held triangle (.token tA) siteAC.a = 5000 by decide +kernel, show held triangle (.token tC) siteAC.a = 20000 by decide +kernel]
    norm_num [asks, bids])
  (.inl (by
    rw [met_detour, show held triangle (.token tA) siteAC.a = 5000 by decide +kernel]
    norm_num [bend, bids]))
  (z := ⟨user, 1000, none, none, none⟩) rfl isUser_user (by simp) directly_run
/-- The formula says 3059.9, the route pays 3060; the pair of A and C pays 3324. -/
example : held detoured (.token tC) user = held triangle (.token tC) user + 3060 ∧ held directly (.token tC) user = held triangle (.token tC) user + 3324 := by
  decide +kernel
example : asks [(10000, 20000), (10000, 20000)] * 1000 / (bids [(10000, 20000), (10000, 20000)] + bend [(10000, 20000), (10000, 20000)] * 1000) =
    (3976036000 / 1299400 : ℚ) ∧ grain [(10000, 20000), (10000, 20000)] = 1994 / 1000 + 1 := by
  norm_num [asks, bids, bend, grain]
end Demo

end Halo
