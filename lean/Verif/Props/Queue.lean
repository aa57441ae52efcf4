import Verif.Props.Slice
import Mathlib.Algebra.Order.Field.Basic
import Mathlib.Tactic.FieldSimp
/-! # C131: how much the order of trades at one pair matters -/

namespace Halo
open _root_.Halo.Spec

/-- A swap that somebody wants to make: who, how much, and the options of the message. -/
structure Sale where
  who : Addr
  x : Nat
  belief : Option Nat
  spread : Option Nat
  dst : Option Str

/-- The transaction. -/
def Sale.msg (k : PairSite) (t : Addr) (s : Sale) : CosmosMsg := .exec t (.send k.a s.x (.swap s.belief s.spread s.dst)) []

/-- The sales of the token `t` to the pair are served in the order given, each in a transaction of its own (with whatever the world around does in it). -/
inductive InTurn (c : Chain) (k : PairSite) (t : Addr) : World → List Sale → World → Prop where
  | done (w : World) : InTurn c k t w [] w
  | next {w v w' : World} {s : Sale} {rest : List Sale} (adv : Adv) (gas : Nat) (hS : c.IsUser s.who) (hd : s.dst ≠ some k.a)
      (h : runTx c adv gas w s.who (s.msg k t) = .ok v) (hr : InTurn c k t v rest w') : InTurn c k t w (s :: rest) w'

namespace QueueL

/-- What a swap leaves at most. -/
theorem leaves_le {o a x : Nat} (ho : o ≠ 0) : 1000 * (o + x) * (a - payout o a x) ≤ a * (1000 * o + 3 * x) + 1000 * (o + x) := by
  have hf := floor_le_gross (o := o) (a := a) (x := x) (by omega)
  have hp : payout o a x = grossOf o a x - 3 * grossOf o a x / 1000 := by unfold payout; rw [gross_eq]
  have hga := grossOf_le o a x
  have hd : a * x < (a * x / (o + x) + 1) * (o + x) := by
    have := Nat.lt_div_mul_add (a := a * x) (b := o + x) (by omega)
    rw [Nat.add_mul, Nat.one_mul]
    exact this
  generalize a * x / (o + x) = q at *
  generalize payout o a x = r at *
  generalize grossOf o a x = g at *
  have h1 : 997 * g ≤ 1000 * r := by omega
  have hr : r ≤ a := by omega
  obtain ⟨b, rfl⟩ := Nat.exists_eq_add_of_le hr
  rw [Nat.add_sub_cancel_left]
  have h2 := Nat.mul_le_mul_right (o + x) (Nat.mul_le_mul_left 997 (Nat.add_le_add_right hf 1))
  have h3 := Nat.mul_le_mul_right (o + x) h1
  nlinarith

theorem sold {c : Chain} (hc : c.Lawful) {k : PairSite} {t : Addr} {j : AssetInfo} (hd : k.Dir (.token t) j) {w v : World} (hw : Reachable c w)
    (hk : k.Sound c w) {s : Sale} {adv : Adv} {gas : Nat} (hS : c.IsUser s.who) (hdst : s.dst ≠ some k.a)
    (h : runTx c adv gas w s.who (s.msg k t) = .ok v) :
    Reachable c v ∧ k.Sound c v ∧ held w (.token t) k.a ≠ 0 ∧ held v (.token t) k.a = held w (.token t) k.a + s.x ∧
    payout (held w (.token t) k.a) (held w j k.a) s.x ≤ held w j k.a ∧
    held v j k.a = held w j k.a - payout (held w (.token t) k.a) (held w j k.a) s.x := by
  obtain ⟨r, sp, cm, hp, hkv, e1, e2, e3, e4, e5, e6⟩ := swap_tx hc hw hk hd hS hdst h
  obtain ⟨ho, _, hr, _⟩ := hp.form
  have hr' : r = payout (held w (.token t) k.a) (held w j k.a) s.x := by rw [hr]; unfold payout; rw [gross_eq]
  rw [← hr']
  exact ⟨.step _ _ hw (.tx _ _ _ _ _ _ hS h), hkv, ho, e3, e4, e5⟩

end QueueL
open QueueL

/-- **C131.** Whoever sells altogether `X` of one asset to a pair, in however many swaps, in whatever order and with whatever limits: the pair has `X` more of it, and of
the other asset between `a * o / (o + X) - n` and `a * (o + 0.003 X) / (o + X) + n`. -/
theorem C131_between {c : Chain} (hc : c.Lawful) {k : PairSite} {t : Addr} {j : AssetInfo} (hd : k.Dir (.token t) j) {w w' : World} (hw : Reachable c w)
    (hk : k.Sound c w) {q : List Sale} (h : InTurn c k t w q w') :
    held w' (.token t) k.a = held w (.token t) k.a + (q.map Sale.x).sum ∧ held w' j k.a ≤ held w j k.a ∧
    held w j k.a * held w (.token t) k.a ≤ (held w' j k.a + q.length) * (held w (.token t) k.a + (q.map Sale.x).sum) ∧
    1000 * (held w (.token t) k.a + (q.map Sale.x).sum) * held w' j k.a ≤
      held w j k.a * (1000 * held w (.token t) k.a + 3 * (q.map Sale.x).sum) + 1000 * q.length * (held w (.token t) k.a + (q.map Sale.x).sum) := by
  induction h with
  | done w => simp; exact (Nat.mul_comm _ _).le
  | @next w v w' s rest adv gas hS hdst h hr ih =>
    obtain ⟨hv, hkv, ho, e1, e2, e3⟩ := sold hc hd hw hk hS hdst h
    obtain ⟨i1, i2, i3, i4⟩ := ih hv hkv
    have l1 := SliceL.leaves ho e2 0
    have l2 := leaves_le (a := held w j k.a) (x := s.x) ho
    rw [← e3] at l1 l2
    simp only [List.map_cons, List.sum_cons, List.length_cons]
    rw [e1] at i1 i3 i4
    have hle : held v j k.a ≤ held w j k.a := by omega
    generalize (rest.map Sale.x).sum = X at *
    generalize held w (.token t) k.a = o at *
    generalize held w j k.a = a at *
    generalize held v j k.a = b at *
    generalize held w' j k.a = b' at *
    generalize rest.length = n at *
    generalize s.x = x at *
    refine ⟨by omega, i2.trans hle, ?_, ?_⟩
    · have : a * o ≤ (b + 1) * (o + x) := by nlinarith
      nlinarith
    · have := Nat.mul_le_mul_right (3 * X) hle
      nlinarith

/-- **C131.** So however the same amount is sold, the pair pays the same for it altogether, up to 0.3% of `a * X / (o + X)` (the fee on a single swap of it all) and one unit per swap:
the order decides who gets what, but hardly what the pair keeps. -/
theorem C131_orders {c : Chain} (hc : c.Lawful) {k : PairSite} {t : Addr} {j : AssetInfo} (hd : k.Dir (.token t) j) {w w1 w2 : World} (hw : Reachable c w)
    (hk : k.Sound c w) {q1 q2 : List Sale} (h1 : InTurn c k t w q1 w1) (h2 : InTurn c k t w q2 w2) {X : Nat}
    (hX : (q1.map Sale.x).sum = X) (hX' : (q2.map Sale.x).sum = X) :
    held w1 (.token t) k.a = held w2 (.token t) k.a ∧ 1000 * (held w (.token t) k.a + X) * held w1 j k.a ≤
      1000 * (held w (.token t) k.a + X) * held w2 j k.a + 3 * X * held w j k.a +
        1000 * (q1.length + q2.length) * (held w (.token t) k.a + X) := by
  obtain ⟨a1, a2, a3, a4⟩ := C131_between hc hd hw hk h1
  obtain ⟨b1, b2, b3, b4⟩ := C131_between hc hd hw hk h2
  rw [hX] at a1 a3 a4
  rw [hX'] at b1 b3 b4
  refine ⟨by omega, ?_⟩
  nlinarith

namespace QueueL

/-- The ideal remainder of a swap, and how far it may be missed. -/
theorem near {o a x : Nat} (ho : o ≠ 0) (hr : payout o a x ≤ a) :
    |((a - payout o a x : Nat) : ℚ) - a * ((1000 * o + 3 * x) / (1000 * (o + x)))| ≤ 1 := by
  have l1 := SliceL.leaves ho hr 0
  have l2 := leaves_le (a := a) (x := x) ho
  generalize a - payout o a x = b at *
  have hpos : (0 : ℚ) < 1000 * (o + x) := by positivity
  have l1' : (a : ℚ) * (1000 * o + 3 * x) ≤ (b + 1) * (1000 * (o + x)) := by
    have : a * (1000 * o + 3 * x) ≤ (b + 1) * (1000 * (o + x)) := by nlinarith
    exact_mod_cast this
  have l2' : (b : ℚ) * (1000 * (o + x)) ≤ a * (1000 * o + 3 * x) + 1000 * (o + x) := by
    have : b * (1000 * (o + x)) ≤ a * (1000 * o + 3 * x) + 1000 * (o + x) := by nlinarith
    exact_mod_cast this
  rw [← mul_div_assoc, abs_le]
  constructor
  · rw [neg_le_sub_iff_le_add, div_le_iff₀ hpos]
    linarith
  · rw [sub_le_iff_le_add, ← sub_le_iff_le_add', le_div_iff₀ hpos]
    linarith

theorem two {a α β b c : ℚ} (hβ : 0 ≤ β) (hβ' : β ≤ 1) (h1 : |b - a * α| ≤ 1) (h2 : |c - b * β| ≤ 1) : |c - a * (α * β)| ≤ 2 := by
  rw [abs_le] at *
  constructor <;> nlinarith

theorem swapped {o x y : ℚ} (ho : 0 < o) (hx : 0 ≤ x) (hy : 0 ≤ y) :
    (1000 * o + 3 * x) / (1000 * (o + x)) * ((1000 * (o + x) + 3 * y) / (1000 * (o + x + y))) -
      (1000 * o + 3 * y) / (1000 * (o + y)) * ((1000 * (o + y) + 3 * x) / (1000 * (o + y + x))) =
    2991 / 10 ^ 6 * (x * y * (x - y)) / ((o + x) * (o + y) * (o + x + y)) := by
  have h1 : o + x ≠ 0 := by positivity
  have h2 : o + y ≠ 0 := by positivity
  have h3 : o + x + y ≠ 0 := by positivity
  have h4 : o + y + x ≠ 0 := by positivity
  rw [show o + y + x = o + x + y by ring]
  field_simp
  ring

end QueueL

/-- **C131.** Two swaps at the same pair, of `x` and of `y` of the same asset, in one order and in the other: the pair ends with the same amount of that asset, and the amounts of the other
asset differ, up to four units, by no more than `0.002991 * a * x * y * |x - y| / ((o + x) (o + y) (o + x + y))`. -/
theorem C131_two {c : Chain} (hc : c.Lawful) {k : PairSite} {t : Addr} {j : AssetInfo} (hd : k.Dir (.token t) j) {w w1 w2 : World} (hw : Reachable c w)
    (hk : k.Sound c w) {s1 s2 : Sale} (h1 : InTurn c k t w [s1, s2] w1) (h2 : InTurn c k t w [s2, s1] w2) :
    held w1 (.token t) k.a = held w2 (.token t) k.a ∧
    |(held w1 j k.a : ℚ) - held w2 j k.a| ≤ 4 + held w j k.a * (2991 / 10 ^ 6 * (s1.x * s2.x * |(s1.x : ℚ) - s2.x|) /
      ((held w (.token t) k.a + s1.x) * (held w (.token t) k.a + s2.x) * (held w (.token t) k.a + s1.x + s2.x))) := by
  have pair : ∀ {s s' : Sale} {v : World}, InTurn c k t w [s, s'] v → held w (.token t) k.a ≠ 0 ∧ held v (.token t) k.a = held w (.token t) k.a + s.x + s'.x ∧
      |(held v j k.a : ℚ) - held w j k.a * ((1000 * held w (.token t) k.a + 3 * s.x) / (1000 * (held w (.token t) k.a + s.x)) *
        ((1000 * (held w (.token t) k.a + s.x) + 3 * s'.x) / (1000 * (held w (.token t) k.a + s.x + s'.x))))| ≤ 2 := by
    intro s s' v h
    cases h with
    | next adv gas hS hdst h hr =>
      cases hr with
      | next adv' gas' hS' hdst' h' hr' =>
        cases hr' with
        | done =>
          obtain ⟨hu, hku, ho, e1, e2, e3⟩ := sold hc hd hw hk hS hdst h
          obtain ⟨hv, hkv, ho', f1, f2, f3⟩ := sold hc hd hu hku hS' hdst' h'
          have n1 := near ho e2
          have n2 := near ho' f2
          rw [← e3] at n1
          rw [← f3, e1] at n2
          push_cast at n2
          refine ⟨ho, by omega, two ?_ ?_ n1 n2⟩
          · positivity
          · rw [div_le_one (by positivity)]
            have : (0 : ℚ) ≤ s'.x := Nat.cast_nonneg _
            linarith
  obtain ⟨ho, a1, a2⟩ := pair h1
  obtain ⟨_, b1, b2⟩ := pair h2
  refine ⟨by omega, ?_⟩
  have ho' : (0 : ℚ) < held w (.token t) k.a := by exact_mod_cast Nat.pos_of_ne_zero ho
  have hs := swapped ho' (Nat.cast_nonneg s1.x) (Nat.cast_nonneg s2.x)
  set A := (1000 * (held w (.token t) k.a : ℚ) + 3 * s1.x) / (1000 * (held w (.token t) k.a + s1.x)) *
        ((1000 * (held w (.token t) k.a + s1.x) + 3 * s2.x) / (1000 * (held w (.token t) k.a + s1.x + s2.x)))
  set B := (1000 * (held w (.token t) k.a : ℚ) + 3 * s2.x) / (1000 * (held w (.token t) k.a + s2.x)) *
        ((1000 * (held w (.token t) k.a + s2.x) + 3 * s1.x) / (1000 * (held w (.token t) k.a + s2.x + s1.x)))
  have hAB : |A - B| = 2991 / 10 ^ 6 * (s1.x * s2.x * |(s1.x : ℚ) - s2.x|) /
      ((held w (.token t) k.a + s1.x) * (held w (.token t) k.a + s2.x) * (held w (.token t) k.a + s1.x + s2.x)) := by
    rw [hs, abs_div, abs_mul, abs_mul, abs_of_nonneg (a := ((s1.x : ℚ) * s2.x)) (by positivity), abs_of_nonneg (a := (2991 / 10 ^ 6 : ℚ)) (by norm_num),
      abs_of_nonneg (a := ((held w (.token t) k.a + s1.x) * (held w (.token t) k.a + s2.x) * (held w (.token t) k.a + s1.x + s2.x) : ℚ)) (by positivity)]
  rw [← hAB]
  have e : (held w1 j k.a : ℚ) - held w2 j k.a = (held w1 j k.a - held w j k.a * A) - (held w2 j k.a - held w j k.a * B) + held w j k.a * (A - B) := by ring
  rw [e]
  refine (abs_add_le _ _).trans ?_
  refine add_le_add ((abs_sub _ _).trans (by linarith)) ?_
  rw [abs_mul, abs_of_nonneg (Nat.cast_nonneg _)]

theorem QueueL.after {c : Chain} (hc : c.Lawful) {k : PairSite} {t : Addr} {j : AssetInfo} (hd : k.Dir (.token t) j) {w w' : World} (hw : Reachable c w)
    (hk : k.Sound c w) {q : List Sale} (h : InTurn c k t w q w') : Reachable c w' ∧ k.Sound c w' := by
  induction h with
  | done w => exact ⟨hw, hk⟩
  | next adv gas hS hdst h hr ih =>
    obtain ⟨hv, hkv, _⟩ := sold hc hd hw hk hS hdst h
    exact ih hv hkv

/-- **C131.** And for who has to wait: if `n` swaps of altogether `Y` are served first, a swap of `x` still gets at least the fraction `o (o + x) / ((o + Y) (o + x + Y))` of what it
would have got, less `n + 2` units. -/
theorem C131_waiting {c : Chain} (hc : c.Lawful) {k : PairSite} {t : Addr} {j : AssetInfo} (hd : k.Dir (.token t) j) {w w1 v w2 : World} (hw : Reachable c w)
    (hk : k.Sound c w) {s : Sale} {q : List Sale} {Y : Nat} (hY : (q.map Sale.x).sum = Y) (h1 : InTurn c k t w [s] w1) (h2 : InTurn c k t w q v)
    (h3 : InTurn c k t v [s] w2) {r1 r2 : Nat} (hr1 : held w j k.a = held w1 j k.a + r1) (hr2 : held v j k.a = held w2 j k.a + r2) :
    r1 * (held w (.token t) k.a * (held w (.token t) k.a + s.x)) ≤
      (r2 + q.length + 2) * ((held w (.token t) k.a + Y) * (held w (.token t) k.a + s.x + Y)) := by
  obtain ⟨hv, hkv⟩ := QueueL.after hc hd hw hk h2
  obtain ⟨f1, _, k2, _⟩ := C131_between hc hd hw hk h2
  rw [hY] at f1 k2
  cases h1 with
  | next adv gas hS hdst h hr =>
  cases hr
  cases h3 with
  | next adv'' gas'' hS'' hdst'' h'' hr =>
  cases hr
  obtain ⟨_, _, ho, _, e2, e3⟩ := sold hc hd hw hk hS hdst h
  obtain ⟨_, _, ho', _, _, g3⟩ := sold hc hd hv hkv hS'' hdst'' h''
  have l1 := SliceL.leaves ho e2 0
  have l3 := leaves_le (a := held v j k.a) (x := s.x) ho'
  rw [← e3] at l1
  rw [← g3, f1] at l3
  clear e2 e3 g3
  generalize held w (.token t) k.a = o at *
  generalize held w j k.a = a at *
  generalize held v j k.a = b at *
  generalize held w1 j k.a = a1 at *
  generalize held w2 j k.a = b2 at *
  generalize s.x = x at *
  generalize q.length = n at *
  subst hr1 hr2
  have k1 : 1000 * (o + x) * r1 ≤ 997 * x * (a1 + r1) + 1000 * (o + x) := by nlinarith
  have k3 : 997 * x * (b2 + r2) ≤ 1000 * (o + x + Y) * (r2 + 1) := by nlinarith
  have m1 := Nat.mul_le_mul_right o k1
  have m2 := Nat.mul_le_mul_left (997 * x) k2
  have m3 := Nat.mul_le_mul_right (o + Y) k3
  have m4 : 997 * x * (o + Y) * n ≤ 1000 * ((o + x + Y) * (o + Y)) * n := Nat.mul_le_mul_right _ (by nlinarith)
  have m5 : (o + x) * o ≤ (o + x + Y) * (o + Y) := by nlinarith
  nlinarith

/-! ### Cases that meet the hypotheses -/

namespace Demo

def saleS : Sale := ⟨user2, 400, none, none, none⟩
def saleF : Sale := ⟨user, 4000, none, some (9 * 10 ^ 17), some user2⟩

private def play (w : World) (s : Sale) : World := worldOf (runTx chain idle 20 w s.who (s.msg siteAB tB))

private theorem play1 : runTx chain idle 20 night saleS.who (saleS.msg siteAB tB) = .ok (play night saleS) := worldOf_eq (by decide +kernel)
private theorem play2 : runTx chain idle 20 night saleF.who (saleF.msg siteAB tB) = .ok (play night saleF) := worldOf_eq (by decide +kernel)
private theorem play3 : runTx chain idle 20 (play night saleF) saleS.who (saleS.msg siteAB tB) = .ok (play (play night saleF) saleS) :=
  worldOf_eq (by decide +kernel)
private theorem play4 : runTx chain idle 20 (play night saleS) saleF.who (saleF.msg siteAB tB) = .ok (play (play night saleS) saleF) :=
  worldOf_eq (by decide +kernel)

private theorem servedS {w v w' : World} {q : List Sale} (h : runTx chain idle 20 w saleS.who (saleS.msg siteAB tB) = .ok v)
    (hr : InTurn chain siteAB tB v q w') : InTurn chain siteAB tB w (saleS :: q) w' := .next idle 20 isUser_user2 (by simp [saleS]) h hr
private theorem servedF {w v w' : World} {q : List Sale} (h : runTx chain idle 20 w saleF.who (saleF.msg siteAB tB) = .ok v)
    (hr : InTurn chain siteAB tB v q w') : InTurn chain siteAB tB w (saleF :: q) w' := .next idle 20 isUser_user (by decide +kernel) h hr

private theorem sf : InTurn chain siteAB tB night [saleS, saleF] (play (play night saleS) saleF) := servedS play1 (servedF play4 (.done _))
private theorem fs : InTurn chain siteAB tB night [saleF, saleS] (play (play night saleF) saleS) := servedF play2 (servedS play3 (.done _))

example := C131_between lawful (j := .token tA) (.inr ⟨rfl, rfl⟩) night_reachable sound_night sf
example := C131_orders lawful (j := .token tA) (.inr ⟨rfl, rfl⟩) night_reachable sound_night sf fs (X := 4400) rfl rfl
example := C131_two lawful (j := .token tA) (.inr ⟨rfl, rfl⟩) night_reachable sound_night sf fs
/-- `user2` gets 196 if served first, and 136 after the swap of 4000; the bound is 134. -/
example := C131_waiting lawful (j := .token tA) (.inr ⟨rfl, rfl⟩) night_reachable sound_night (Y := 4000) rfl (servedS play1 (.done _)) (servedF play2 (.done _))
  (servedS play3 (.done _)) (r1 := 196) (r2 := 136) (by decide +kernel) (by decide +kernel)

end Demo

end Halo
