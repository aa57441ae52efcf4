import Verif.Props.Queue
import Verif.Props.Commute
import Mathlib.Algebra.BigOperators.Ring.List
import Mathlib.Algebra.BigOperators.Ring.Finset
/-! # C133: several pairs of the same assets together do what one pair with all the reserves does -/

namespace Halo
open _root_.Halo.Spec

/-- Sales of the token `t` at several pairs, one after the other, each in a transaction of its own. -/
inductive Across (c : Chain) (t : Addr) : World → List (PairSite × Sale) → World → Prop where
  | done (w : World) : Across c t w [] w
  | next {w v w' : World} {k : PairSite} {s : Sale} {rest : List (PairSite × Sale)} (adv : Adv) (gas : Nat) (hS : c.IsUser s.who)
      (h : runTx c adv gas w s.who (s.msg k t) = .ok v) (hr : Across c t v rest w') : Across c t w ((k, s) :: rest) w'

/-- What the pairs have of an asset. -/
def stock (i : AssetInfo) (w : World) (l : List (PairSite × Sale)) : Nat := (l.map fun e => held w i e.1.a).sum
/-- What is sold. -/
def brought (l : List (PairSite × Sale)) : Nat := (l.map fun e => e.2.x).sum
/-- What the pairs have less of an asset than before. -/
def spent (i : AssetInfo) (w w' : World) (l : List (PairSite × Sale)) : ℚ := (l.map fun e => (held w i e.1.a : ℚ) - held w' i e.1.a).sum

/-- Different sound pairs that buy `t` with `j`, none of which is the receiver of a sale. -/
structure Apiece (c : Chain) (t : Addr) (j : AssetInfo) (w : World) (l : List (PairSite × Sale)) : Prop where
  sound : ∀ e ∈ l, e.1.Sound c w
  dir : ∀ e ∈ l, e.1.Dir (.token t) j
  apart : (l.map fun e => e.1.a).Nodup
  away : ∀ e ∈ l, ∀ e' ∈ l, e.2.dst ≠ some e'.1.a

namespace MergeL
open CommuteL QueueL

theorem step_keep {c : Chain} (hc : c.Lawful) {t : Addr} {j : AssetInfo} {w v : World} (hw : Reachable c w) {k : PairSite} {s : Sale} (hk : k.Sound c w)
    (hd : k.Dir (.token t) j) {adv : Adv} {gas : Nat} (hS : c.IsUser s.who) (h : runTx c adv gas w s.who (s.msg k t) = .ok v) :
    Reachable c v ∧ (∀ l : PairSite, l.Sound c w → l.Sound c v) ∧
      ∀ l : PairSite, l.Sound c w → l.a ≠ k.a → s.dst ≠ some l.a → ∀ i, held v i l.a = held w i l.a := by
  obtain ⟨r, sp, cm, hp, hkeep, hx, hm⟩ := swap_all hc hw hk hd hS h
  refine ⟨.step _ _ hw (.tx _ _ _ _ _ _ hS h), fun l hl => ((hl.good hc hw).keep hkeep).sound (hl.ctx hc), ?_⟩
  intro l hl hne hdst i
  have hSl : s.who ≠ l.a := (addr_facts hc hw hl.pair).2 _ hS
  have far : s.dst.getD s.who ≠ l.a := by
    cases hds : s.dst with
    | none => exact hSl
    | some d => rw [hds] at hdst; exact fun e => hdst (congrArg some e)
  have := hm i l.a
  simp only [Ne.symm hSl, hne, Ne.symm far, and_false, if_false, Nat.add_zero] at this
  exact this

theorem _root_.Halo.Apiece.tail {c : Chain} {t : Addr} {j : AssetInfo} {w v : World} {e : PairSite × Sale} {l : List (PairSite × Sale)} (h : Apiece c t j w (e :: l))
    (hv : ∀ k : PairSite, k.Sound c w → k.Sound c v) : Apiece c t j v l where
  sound := fun e he => hv _ (h.sound e (List.mem_cons_of_mem _ he))
  dir := fun e he => h.dir e (List.mem_cons_of_mem _ he)
  apart := (List.nodup_cons.mp h.apart).2
  away := fun e he e' he' => h.away e (List.mem_cons_of_mem _ he) e' (List.mem_cons_of_mem _ he')

/-- A pair that is not asked keeps what it has. -/
theorem untouched {c : Chain} (hc : c.Lawful) {t : Addr} {j : AssetInfo} {w w' : World} {l : List (PairSite × Sale)} (h : Across c t w l w') :
    Reachable c w → Apiece c t j w l → ∀ k : PairSite, k.Sound c w → (∀ e ∈ l, e.1.a ≠ k.a ∧ e.2.dst ≠ some k.a) → ∀ i, held w' i k.a = held w i k.a := by
  induction h with
  | done => intros; rfl
  | @next w v w' k0 s rest adv gas hS h hr ih =>
    intro hw ha k hk hn i
    obtain ⟨hv, sv, st⟩ := step_keep hc hw (ha.sound _ List.mem_cons_self) (ha.dir _ List.mem_cons_self) hS h
    rw [ih hv (ha.tail sv) k (sv k hk) (fun e he => hn e (List.mem_cons_of_mem _ he)) i]
    exact st k hk (Ne.symm (hn _ List.mem_cons_self).1) (hn _ List.mem_cons_self).2 i

/-- Every pair pays what it pays for its sale alone. -/
theorem each {c : Chain} (hc : c.Lawful) {t : Addr} {j : AssetInfo} {w w' : World} {l : List (PairSite × Sale)} (h : Across c t w l w') :
    Reachable c w → Apiece c t j w l → ∀ e ∈ l, held w (.token t) e.1.a ≠ 0 ∧ held w' (.token t) e.1.a = held w (.token t) e.1.a + e.2.x ∧
      payout (held w (.token t) e.1.a) (held w j e.1.a) e.2.x ≤ held w j e.1.a ∧
      held w' j e.1.a = held w j e.1.a - payout (held w (.token t) e.1.a) (held w j e.1.a) e.2.x := by
  induction h with
  | done => intro _ _ e he; cases he
  | @next w v w' k0 s rest adv gas hS h hr ih =>
    intro hw ha e he
    have hk0 := ha.sound _ List.mem_cons_self
    have hd0 := ha.dir _ List.mem_cons_self
    obtain ⟨hv, sv, st⟩ := step_keep hc hw hk0 hd0 hS h
    have ap := List.nodup_cons.mp ha.apart
    rcases List.mem_cons.mp he with rfl | he
    · obtain ⟨_, hkv, ho, e1, e2, e3⟩ := sold hc hd0 hw hk0 hS (ha.away _ List.mem_cons_self _ List.mem_cons_self) h
      have un := untouched hc hr hv (ha.tail sv) k0 hkv fun e he =>
        ⟨fun hh => ap.1 (List.mem_map.mpr ⟨e, he, hh⟩), ha.away _ (List.mem_cons_of_mem _ he) _ List.mem_cons_self⟩
      simp only [un]
      exact ⟨ho, e1, e2, e3⟩
    · have hne : e.1.a ≠ k0.a := fun hh => ap.1 (List.mem_map.mpr ⟨e, he, hh⟩)
      have hs := st e.1 (ha.sound _ (List.mem_cons_of_mem _ he)) hne (ha.away _ List.mem_cons_self _ (List.mem_cons_of_mem _ he))
      have := ih hv (ha.tail sv) e he
      rwa [hs, hs] at this

theorem above {o a x : Nat} (ho : o ≠ 0) (hr : payout o a x ≤ a) :
    |(payout o a x : ℚ) - 997 / 1000 * (a * x / (o + x))| ≤ 1 := by
  have h := near ho hr
  have ho' : (0 : ℚ) < o := by exact_mod_cast Nat.pos_of_ne_zero ho
  have hpos : (o : ℚ) + x ≠ 0 := by positivity
  rw [Nat.cast_sub hr] at h
  have e : (a : ℚ) - payout o a x - a * ((1000 * o + 3 * x) / (1000 * (o + x))) = -(payout o a x - 997 / 1000 * (a * x / (o + x))) := by
    field_simp
    ring
  rwa [e, abs_neg] at h

/-- The depth of a pool: what it pays at the price 1 without fee. -/
def depth (o x : ℚ) : ℚ := o * x / (o + x)

theorem depth_add {o x o' x' : ℚ} (h : 0 < o) (hx : 0 ≤ x) (h' : 0 < o') (hx' : 0 ≤ x') : depth o x + depth o' x' ≤ depth (o + o') (x + x') := by
  unfold depth
  have h1 : 0 < o + x := by positivity
  have h2 : 0 < o' + x' := by positivity
  have h3 : 0 < o + o' + (x + x') := by positivity
  rw [div_add_div _ _ h1.ne' h2.ne', div_le_div_iff₀ (mul_pos h1 h2) h3]
  nlinarith [sq_nonneg (o * x' - o' * x)]

theorem depth_sum {ι : Type} (o x : ι → ℚ) : ∀ l : List ι, (∀ e ∈ l, 0 < o e ∧ 0 ≤ x e) →
    (l.map fun e => depth (o e) (x e)).sum ≤ depth (l.map o).sum (l.map x).sum
  | [], _ => by simp [depth]
  | [e], _ => by simp
  | e :: e' :: l, h => by
    have ih := depth_sum o x (e' :: l) fun d hd => h d (List.mem_cons_of_mem _ hd)
    have h0 := h e List.mem_cons_self
    have hp : ∀ m : List ι, (∀ d ∈ m, 0 < o d ∧ 0 ≤ x d) → 0 ≤ (m.map o).sum ∧ 0 ≤ (m.map x).sum := fun m hm =>
      ⟨List.sum_nonneg fun y hy => by obtain ⟨d, hd, rfl⟩ := List.mem_map.mp hy; exact (hm d hd).1.le,
        List.sum_nonneg fun y hy => by obtain ⟨d, hd, rfl⟩ := List.mem_map.mp hy; exact (hm d hd).2⟩
    have hl := hp l fun d hd => h d (List.mem_cons_of_mem _ (List.mem_cons_of_mem _ hd))
    have h1 := h e' (List.mem_cons_of_mem _ List.mem_cons_self)
    have : 0 < ((e' :: l).map o).sum := by rw [List.map_cons, List.sum_cons]; linarith
    have hx : 0 ≤ ((e' :: l).map x).sum := by rw [List.map_cons, List.sum_cons]; linarith
    rw [List.map_cons, List.sum_cons, List.map_cons (f := o), List.sum_cons, List.map_cons (f := x), List.sum_cons]
    exact (add_le_add_right ih _).trans (depth_add h0.1 h0.2 this hx)

end MergeL
open MergeL

/-- **C133.** Whoever sells altogether `X` of one asset for another, split in whatever way over however many pairs that have `O` of it altogether: if none of them has a better price
than `P`, they pay at most `0.997 * P * O * X / (O + X)`, as a single pair with the reserves `O` and `P * O` would, and one unit per swap. -/
theorem C133_at_most {c : Chain} (hc : c.Lawful) {t : Addr} {j : AssetInfo} {w w' : World} (hw : Reachable c w) {l : List (PairSite × Sale)}
    (ha : Apiece c t j w l) (h : Across c t w l w') {P : ℚ} (hP : ∀ e ∈ l, (held w j e.1.a : ℚ) ≤ P * held w (.token t) e.1.a) :
    spent j w w' l ≤ 997 / 1000 * (P * (stock (.token t) w l * brought l / (stock (.token t) w l + brought l))) + l.length := by
  have he := each hc h hw ha
  by_cases hl : l = []
  · subst hl; simp [spent, stock, brought]
  have hP0 : 0 ≤ P := by
    obtain ⟨e, hel⟩ := List.exists_mem_of_ne_nil l hl
    have ho : (0 : ℚ) < held w (.token t) e.1.a := by exact_mod_cast Nat.pos_of_ne_zero (he e hel).1
    by_contra hn
    have h1 := hP e hel
    have h2 := mul_neg_of_neg_of_pos (not_le.mp hn) ho
    have h3 : (0 : ℚ) ≤ held w j e.1.a := Nat.cast_nonneg _
    linarith
  have one : ∀ e ∈ l, (held w j e.1.a : ℚ) - held w' j e.1.a ≤ 997 / 1000 * P * depth (held w (.token t) e.1.a) e.2.x + 1 := by
    intro e hel
    obtain ⟨ho, _, e2, e3⟩ := he e hel
    have ho' : (0 : ℚ) < held w (.token t) e.1.a := by exact_mod_cast Nat.pos_of_ne_zero ho
    have hx : (0 : ℚ) ≤ e.2.x := Nat.cast_nonneg _
    have hb := (abs_le.mp (above ho e2)).2
    rw [e3, Nat.cast_sub e2]
    have hd : (held w j e.1.a : ℚ) * e.2.x / (held w (.token t) e.1.a + e.2.x) ≤ P * depth (held w (.token t) e.1.a) e.2.x := by
      unfold depth
      rw [← mul_div_assoc, div_le_div_iff_of_pos_right (by positivity), ← mul_assoc]
      exact mul_le_mul_of_nonneg_right (hP e hel) hx
    linarith
  have hs : spent j w w' l ≤ (l.map fun e => 997 / 1000 * P * depth (held w (.token t) e.1.a) e.2.x + 1).sum := List.sum_le_sum one
  have hd := depth_sum (fun e : PairSite × Sale => (held w (.token t) e.1.a : ℚ)) (fun e => (e.2.x : ℚ)) l fun e hel =>
    ⟨by exact_mod_cast Nat.pos_of_ne_zero (he e hel).1, Nat.cast_nonneg _⟩
  have c1 : (l.map fun e : PairSite × Sale => (held w (.token t) e.1.a : ℚ)).sum = stock (.token t) w l := by
    unfold stock; rw [Nat.cast_list_sum, List.map_map]; rfl
  have c2 : (l.map fun e : PairSite × Sale => (e.2.x : ℚ)).sum = brought l := by
    unfold brought; rw [Nat.cast_list_sum, List.map_map]; rfl
  rw [c1, c2] at hd
  have hsum : (l.map fun e => 997 / 1000 * P * depth (held w (.token t) e.1.a) e.2.x + 1).sum =
      997 / 1000 * P * (l.map fun e => depth (held w (.token t) e.1.a) e.2.x).sum + l.length := by
    rw [List.sum_map_add, List.sum_map_mul_left, List.map_const', List.sum_replicate, nsmul_eq_mul, mul_one]
  rw [hsum] at hs
  have := mul_le_mul_of_nonneg_left hd (show 0 ≤ 997 / 1000 * P by positivity)
  unfold depth at this hs
  linarith

/-- **C133.** So several pairs are no better for traders than one: compared with any pair `m`, in whatever world, that has as much of the asset sold as all of them together
and no worse a price than any, selling everything to `m` at once pays as much, up to one unit per swap. -/
theorem C133_no_better {c : Chain} (hc : c.Lawful) {t : Addr} {j : AssetInfo} {w w' : World} (hw : Reachable c w) {l : List (PairSite × Sale)}
    (ha : Apiece c t j w l) (h : Across c t w l w') {c2 : Chain} (hc2 : c2.Lawful) {u u' : World} (hu : Reachable c2 u) {m : PairSite} (hm : m.Sound c2 u)
    {t2 : Addr} {j2 : AssetInfo} (hd2 : m.Dir (.token t2) j2) (hO : held u (.token t2) m.a = stock (.token t) w l)
    (hP : ∀ e ∈ l, held w j e.1.a * held u (.token t2) m.a ≤ held u j2 m.a * held w (.token t) e.1.a) {s : Sale} (hs : s.x = brought l)
    (hS : c2.IsUser s.who) (hdst : s.dst ≠ some m.a) {adv : Adv} {gas : Nat} (hr : runTx c2 adv gas u s.who (s.msg m t2) = .ok u') :
    spent j w w' l ≤ (held u j2 m.a - held u' j2 m.a) + (l.length + 1) := by
  obtain ⟨_, _, ho, _, e2, e3⟩ := QueueL.sold hc2 hd2 hu hm hS hdst hr
  have ho' : (0 : ℚ) < held u (.token t2) m.a := by exact_mod_cast Nat.pos_of_ne_zero ho
  have hb := (abs_le.mp (above ho e2)).1
  have hm := C133_at_most hc hw ha h (P := held u j2 m.a / held u (.token t2) m.a) (by
    intro e he
    rw [div_mul_eq_mul_div, le_div_iff₀ ho']
    exact_mod_cast hP e he)
  rw [e3, Nat.cast_sub e2]
  rw [hs] at hb ⊢
  rw [← hO, ← mul_div_assoc, ← mul_assoc, div_mul_cancel₀ _ ho'.ne'] at hm
  linarith

/-- **C133.** And nor are they worse: if they have the same price as `m`, and the trade is split in proportion to the reserves, they pay as much as `m` does, up to one unit per swap. -/
theorem C133_as_good {c : Chain} (hc : c.Lawful) {t : Addr} {j : AssetInfo} {w w' : World} (hw : Reachable c w) {l : List (PairSite × Sale)}
    (ha : Apiece c t j w l) (h : Across c t w l w') {c2 : Chain} (hc2 : c2.Lawful) {u u' : World} (hu : Reachable c2 u) {m : PairSite} (hm : m.Sound c2 u)
    {t2 : Addr} {j2 : AssetInfo} (hd2 : m.Dir (.token t2) j2) (hO : held u (.token t2) m.a = stock (.token t) w l)
    (hP : ∀ e ∈ l, held w j e.1.a * held u (.token t2) m.a = held u j2 m.a * held w (.token t) e.1.a) {s : Sale} (hs : s.x = brought l)
    (hprop : ∀ e ∈ l, e.2.x * held u (.token t2) m.a = s.x * held w (.token t) e.1.a)
    (hS : c2.IsUser s.who) (hdst : s.dst ≠ some m.a) {adv : Adv} {gas : Nat} (hr : runTx c2 adv gas u s.who (s.msg m t2) = .ok u') :
    (held u j2 m.a - held u' j2 m.a) ≤ spent j w w' l + (l.length + 1) := by
  obtain ⟨_, _, ho, _, e2, e3⟩ := QueueL.sold hc2 hd2 hu hm hS hdst hr
  have ho' : (0 : ℚ) < held u (.token t2) m.a := by exact_mod_cast Nat.pos_of_ne_zero ho
  have hb := (abs_le.mp (above ho e2)).2
  have he := each hc h hw ha
  rw [e3, Nat.cast_sub e2]
  set O : ℚ := ((held u (.token t2) m.a : ℕ) : ℚ) with hOd
  set A : ℚ := ((held u j2 m.a : ℕ) : ℚ) with hAd
  set V : ℚ := A * s.x / (O + s.x) with hV
  have hOx : 0 < O + s.x := by positivity
  have one : ∀ e ∈ l, 997 / 1000 * V / O * held w (.token t) e.1.a + (-1) ≤ (held w j e.1.a : ℚ) - held w' j e.1.a := by
    intro e hel
    obtain ⟨ho1, _, f2, f3⟩ := he e hel
    have ho1' : (0 : ℚ) < held w (.token t) e.1.a := by exact_mod_cast Nat.pos_of_ne_zero ho1
    have hb1 := (abs_le.mp (above ho1 f2)).1
    rw [f3, Nat.cast_sub f2]
    have p1 : (held w j e.1.a : ℚ) = A * held w (.token t) e.1.a / O := by
      rw [eq_div_iff ho'.ne', hOd, hAd]; exact_mod_cast hP e hel
    have p2 : (e.2.x : ℚ) = s.x * held w (.token t) e.1.a / O := by
      rw [eq_div_iff ho'.ne', hOd]; exact_mod_cast hprop e hel
    have hd : (held w j e.1.a : ℚ) * e.2.x / (held w (.token t) e.1.a + e.2.x) = V / O * held w (.token t) e.1.a := by
      rw [p1, p2, hV]
      have : (held w (.token t) e.1.a : ℚ) + s.x * held w (.token t) e.1.a / O = held w (.token t) e.1.a * (O + s.x) / O := by
        field_simp
      rw [this]
      field_simp
    rw [hd] at hb1
    have e4 : 997 / 1000 * V / O * (held w (.token t) e.1.a : ℚ) = 997 / 1000 * (V / O * held w (.token t) e.1.a) := by ring
    rw [e4]
    linarith
  have hs' : (l.map fun e => 997 / 1000 * V / O * (held w (.token t) e.1.a : ℚ) + (-1)).sum ≤ spent j w w' l := List.sum_le_sum one
  have c1 : (l.map fun e : PairSite × Sale => (held w (.token t) e.1.a : ℚ)).sum = stock (.token t) w l := by
    unfold stock; rw [Nat.cast_list_sum, List.map_map]; rfl
  rw [List.sum_map_add, List.sum_map_mul_left, c1, ← hO, List.map_const', List.sum_replicate, nsmul_eq_mul, ← hOd, div_mul_cancel₀ _ ho'.ne'] at hs'
  linarith

/-! ## Examples -/

namespace Demo

/-- A second factory, with a pair of A and B that gets 5000 and 10000; the pair of the first factory has 10000 and 20000. -/
def fac9 : Addr := chain.addrOf 9
def pTwin : Addr := chain.addrOf 10
def lpTwin : Addr := chain.addrOf 11
def siteTwin : PairSite where
  a := pTwin
  lt := lpTwin
  s := { assetInfos := (.token tA, .token tB), contractAddr := pTwin, liquidityToken := lpTwin, assetDecimals := (6, 6), requirements := ⟨[user], 10, 10⟩ }
  i0 := .token tA
  i1 := .token tB
def twinSetup : List CosmosMsg :=
  [facMsg, .exec fac9 (.createPair (.token tA, .token tB) ⟨[user], 10, 10⟩) [], approve tA pTwin, approve tB pTwin,
   .exec pTwin (.provideLiquidity (⟨.token tA, 5000⟩, ⟨.token tB, 10000⟩) none none) []]
def twofold : World := worldOf (runs twinSetup deployed)
theorem twofold_run : runs twinSetup deployed = .ok twofold := worldOf_eq (by decide +kernel)
theorem twofold_reachable : Reachable chain twofold := deployed_reachable.later (later_runs twofold_run)
/-- Elsewhere all of it is in the one pair. -/
def unitedSetup : List CosmosMsg :=
  [approve tA pAB, approve tB pAB, .exec pAB (.provideLiquidity (⟨.token tA, 5000⟩, ⟨.token tB, 10000⟩) none none) []]
def united : World := worldOf (runs unitedSetup deployed)
theorem united_run : runs unitedSetup deployed = .ok united := worldOf_eq (by decide +kernel)
theorem united_reachable : Reachable chain united := deployed_reachable.later (later_runs united_run)

theorem sound_twofold : siteAB.Sound chain twofold ∧ siteTwin.Sound chain twofold :=
  ⟨sound_of (k := siteAB) (x := tA) (y := tB) (by decide +kernel) ⟨rfl, rfl, rfl⟩ rfl rfl (by decide +kernel) (by decide +kernel),
    sound_of (k := siteTwin) (x := tA) (y := tB) (by decide +kernel) ⟨rfl, rfl, rfl⟩ rfl rfl (by decide +kernel) (by decide +kernel)⟩
theorem sound_united : siteAB.Sound chain united :=
  sound_of (k := siteAB) (x := tA) (y := tB) (by decide +kernel) ⟨rfl, rfl, rfl⟩ rfl rfl (by decide +kernel) (by decide +kernel)

/-- `x` of A are sold to the pair of the first factory and `y` to that of the second. -/
def twoWays (x y : Nat) : List (PairSite × Sale) := [(siteAB, ⟨user, x, none, none, none⟩), (siteTwin, ⟨user, y, none, none, none⟩)]
def partsTx (x y : Nat) : List CosmosMsg := [.exec tA (.send pAB x (.swap none none none)) [], .exec tA (.send pTwin y (.swap none none none)) []]
theorem across_of {x y : Nat} {w w' : World} (h : runs (partsTx x y) w = .ok w') : Across chain tA w (twoWays x y) w' := by
  simp only [partsTx, runs, bind_eq_ok] at h
  obtain ⟨v, h1, v', h2, h3⟩ := h
  cases h3
  exact .next idle 20 isUser_user h1 (.next idle 20 isUser_user h2 (.done _))
theorem apiece (x y : Nat) : Apiece chain tA (.token tB) twofold (twoWays x y) where
  sound := by simp only [twoWays, List.mem_cons, List.not_mem_nil, or_false, forall_eq_or_imp, forall_eq]; exact sound_twofold
  dir := by simp only [twoWays, List.mem_cons, List.not_mem_nil, or_false, forall_eq_or_imp, forall_eq]; exact ⟨.inl ⟨rfl, rfl⟩, .inl ⟨rfl, rfl⟩⟩
  apart := by simp only [twoWays, List.map_cons, List.map_nil]; decide +kernel
  away := by simp [twoWays]

/-- In proportion, and all to one. -/
def fair : World := worldOf (runs (partsTx 2000 1000) twofold)
theorem fair_run : runs (partsTx 2000 1000) twofold = .ok fair := worldOf_eq (by decide +kernel)
def skewed : World := worldOf (runs (partsTx 500 2500) twofold)
theorem skewed_run : runs (partsTx 500 2500) twofold = .ok skewed := worldOf_eq (by decide +kernel)
def allInTx : CosmosMsg := .exec tA (.send pAB 3000 (.swap none none none)) []
def allIn : World := worldOf (runTx chain idle 20 united user allInTx)
theorem allIn_run : runTx chain idle 20 united user allInTx = .ok allIn := worldOf_eq (by decide +kernel)

example := C133_at_most lawful twofold_reachable (apiece 500 2500) (across_of skewed_run) (P := 2) (by
  simp only [twoWays, List.mem_cons, List.not_mem_nil, or_false, forall_eq_or_imp, forall_eq]
  exact ⟨by exact_mod_cast (by decide +kernel : held twofold (.token tB) pAB ≤ 2 * held twofold (.token tA) pAB),
    by exact_mod_cast (by decide +kernel : held twofold (.token tB) pTwin ≤ 2 * held twofold (.token tA) pTwin)⟩)
example := C133_no_better lawful twofold_reachable (apiece 500 2500) (across_of skewed_run) lawful united_reachable sound_united (.inl ⟨rfl, rfl⟩)
  (by decide +kernel) (by simp only [twoWays, List.mem_cons, List.not_mem_nil, or_false, forall_eq_or_imp, forall_eq]; decide +kernel)
  (s := ⟨user, 3000, none, none, none⟩) (by decide +kernel) isUser_user (by simp) allIn_run
example := C133_as_good lawful twofold_reachable (apiece 2000 1000) (across_of fair_run) lawful united_reachable sound_united (.inl ⟨rfl, rfl⟩)
  (by decide +kernel) (by simp only [twoWays, List.mem_cons, List.not_mem_nil, or_false, forall_eq_or_imp, forall_eq]; decide +kernel)
  (s := ⟨user, 3000, none, none, none⟩) (by decide +kernel)
  (by simp only [twoWays, List.mem_cons, List.not_mem_nil, or_false, forall_eq_or_imp, forall_eq]; decide +kernel) isUser_user (by simp) allIn_run
/-- 4986 in proportion, 4985 at the united pair, less if split otherwise. -/
example : held fair (.token tB) user = held twofold (.token tB) user + 4986 ∧ held allIn (.token tB) user = held united (.token tB) user + 4985 ∧
    held skewed (.token tB) user = held twofold (.token tB) user + 4274 := by decide +kernel

end Demo

end Halo
