import Verif.Props.Slice
import Verif.Props.ZeroSum
/-! # C129: what the fee leaves to arbitrage -/

namespace Halo
open _root_.Halo.Spec

/-- How many of the calls are swaps of the first asset. -/
def sales0 (cs : List (Pool × Call)) : Nat := cs.countP fun e => match e.2 with
  | .swap0 _ => true
  | _ => false

/-- How many of the calls are swaps of the second asset. -/
def sales1 (cs : List (Pool × Call)) : Nat := cs.countP fun e => match e.2 with
  | .swap1 _ => true
  | _ => false

namespace WeighL

/-- The mean inequality for `X / i`, taken `i` times, and `Y / n`, taken `n` times. -/
theorem weighted (X Y : ℕ) {i n : ℕ} (hi : 0 < i) (hn : 0 < n) :
    X ^ i * Y ^ n * (i + n) ^ (i + n) ≤ (X + Y) ^ (i + n) * (i ^ i * n ^ n) := by
  rcases Nat.eq_zero_or_pos X with rfl | hX
  · rw [Nat.zero_pow hi]; simp
  rcases Nat.eq_zero_or_pos Y with rfl | hY
  · rw [Nat.zero_pow hn]; simp
  have hX' : (0 : ℚ) < X := by exact_mod_cast hX
  have hY' : (0 : ℚ) < Y := by exact_mod_cast hY
  have hi' : (0 : ℚ) < i := by exact_mod_cast hi
  have hn' : (0 : ℚ) < n := by exact_mod_cast hn
  have hm := SliceL.mean (u := (Y / n : ℚ) / (X / i)) (by positivity) hi n
  have hm' := mul_le_mul_of_nonneg_right hm (a := ((X : ℚ) / i) ^ (n + i)) (by positivity)
  rw [← mul_pow] at hm'
  have e1 : (i + n * ((Y / n : ℚ) / (X / i))) / (i + n) * (X / i) = (X + Y) / (i + n) := by field_simp
  have e2 : ((Y / n : ℚ) / (X / i)) ^ n * (X / i) ^ (n + i) = X ^ i / i ^ i * (Y ^ n / n ^ n) := by
    rw [pow_add, ← mul_assoc, ← mul_pow, show (Y / n : ℚ) / (X / i) * (X / i) = Y / n by field_simp, div_pow, div_pow]; ring
  rw [e1, e2, div_pow, div_mul_div_comm, div_le_div_iff₀ (by positivity) (by positivity), Nat.add_comm n i] at hm'
  exact_mod_cast hm'

/-- The value of a share, weighted, falls by at most the factor `A / B`. -/
def FallBy (f A B : Nat) (p q : Pool) : Prop :=
  p.r1 ^ (f + 3) * p.r0 ^ f * q.supply ^ (f + 3 + f) * A ≤ q.r1 ^ (f + 3) * q.r0 ^ f * p.supply ^ (f + 3 + f) * B

theorem FallBy.trans {f A B C D : Nat} {p b q : Pool} (hb : b.supply ≠ 0) (h1 : FallBy f A B p b) (h2 : FallBy f C D b q) :
    FallBy f (A * C) (B * D) p q := by
  unfold FallBy at *
  have hb : 0 < b.supply ^ (f + 3 + f) := by positivity
  generalize p.r1 ^ (f + 3) * p.r0 ^ f = K at *
  generalize b.r1 ^ (f + 3) * b.r0 ^ f = K1 at *
  generalize q.r1 ^ (f + 3) * q.r0 ^ f = K2 at *
  generalize p.supply ^ (f + 3 + f) = S at *
  generalize b.supply ^ (f + 3 + f) = S1 at *
  generalize q.supply ^ (f + 3 + f) = S2 at *
  refine Nat.le_of_mul_le_mul_right (c := S1) ?_ hb
  calc K * S2 * (A * C) * S1 = K * S1 * A * (S2 * C) := by ring
    _ ≤ K1 * S * B * (S2 * C) := Nat.mul_le_mul_right _ h1
    _ = K1 * S2 * C * (S * B) := by ring
    _ ≤ K2 * S1 * D * (S * B) := Nat.mul_le_mul_right _ h2
    _ = K2 * S * (B * D) * S1 := by ring

/-- Both reserves per share do not fall. -/
theorem of_both {f : Nat} {p q : Pool} (h0 : p.r0 * q.supply ≤ q.r0 * p.supply) (h1 : p.r1 * q.supply ≤ q.r1 * p.supply) : FallBy f 1 1 p q := by
  unfold FallBy
  calc p.r1 ^ (f + 3) * p.r0 ^ f * q.supply ^ (f + 3 + f) * 1 = (p.r1 * q.supply) ^ (f + 3) * (p.r0 * q.supply) ^ f := by
        rw [Nat.mul_pow, Nat.mul_pow, pow_add _ (f + 3) f]; ring
    _ ≤ (q.r1 * p.supply) ^ (f + 3) * (q.r0 * p.supply) ^ f := Nat.mul_le_mul (Nat.pow_le_pow_left h1 _) (Nat.pow_le_pow_left h0 _)
    _ = _ := by rw [Nat.mul_pow, Nat.mul_pow, pow_add _ (f + 3) f]; ring

theorem of_drift {f : Nat} {p q : Pool} (h : Drift p q) : FallBy f 1 1 p q :=
  of_both (Nat.mul_le_mul h.r0 h.supply) (Nat.mul_le_mul h.r1 h.supply)

/-- Swaps do not change the number of shares. -/
theorem of_same {f A B : Nat} {p q : Pool} (hs : q.supply = p.supply)
    (h : p.r1 ^ (f + 3) * p.r0 ^ f * A ≤ q.r1 ^ (f + 3) * q.r0 ^ f * B) : FallBy f A B p q := by
  unfold FallBy
  rw [hs]
  calc p.r1 ^ (f + 3) * p.r0 ^ f * p.supply ^ (f + 3 + f) * A = p.r1 ^ (f + 3) * p.r0 ^ f * A * p.supply ^ (f + 3 + f) := by ring
    _ ≤ q.r1 ^ (f + 3) * q.r0 ^ f * B * p.supply ^ (f + 3 + f) := Nat.mul_le_mul_right _ h
    _ = _ := by ring

theorem act_swap0 {p : Pool} {x R : Nat} (ho : p.r0 ≠ 0) (hp : payout p.r0 p.r1 x ≤ p.r1) (hR : R ≤ p.r1 - payout p.r0 p.r1 x) {f : Nat}
    (hf : f = 997) :
    FallBy f (R ^ (f + 3)) ((R + 1) ^ (f + 3)) p ⟨p.r0 + x, p.r1 - payout p.r0 p.r1 x, p.supply⟩ := by
  refine of_same rfl ?_
  have h := SliceL.leaves ho hp 0
  rw [Nat.add_zero, Nat.zero_add, ← hf] at h
  have h := SliceL.step_pow (Nat.pos_of_ne_zero ho) (Nat.le_add_right p.r0 x) h
  simp only
  generalize p.r1 - payout p.r0 p.r1 x = y at *
  have hy : (y + 1) * R ≤ y * (R + 1) := by nlinarith
  calc p.r1 ^ (f + 3) * p.r0 ^ f * R ^ (f + 3) ≤ (y + 1) ^ (f + 3) * (p.r0 + x) ^ f * R ^ (f + 3) := Nat.mul_le_mul_right _ h
    _ = ((y + 1) * R) ^ (f + 3) * (p.r0 + x) ^ f := by rw [Nat.mul_pow]; ring
    _ ≤ (y * (R + 1)) ^ (f + 3) * (p.r0 + x) ^ f := Nat.mul_le_mul_right _ (Nat.pow_le_pow_left hy _)
    _ = _ := by rw [Nat.mul_pow]; ring

theorem act_other {p q : Pool} {l : Call} (h : Act l p q) (hl : ¬ Leak (p, l)) (hS : p.supply ≠ 0) (hn : ∀ x, l ≠ .swap0 x) {f : Nat} :
    FallBy f 1 1 p q := by
  cases h with
  | swap0 _ x => exact absurd rfl (hn x)
  | swap1 _ x ho h =>
    refine of_same rfl ?_
    have hp : p.r1 * p.r0 ≤ (p.r1 + x) * (p.r0 - payout p.r1 p.r0 x) := Nat.le_of_not_lt fun hlt => hl ((payout_slip ho).mp hlt)
    simp only
    generalize p.r0 - payout p.r1 p.r0 x = y at *
    rw [Nat.mul_one, Nat.mul_one]
    calc p.r1 ^ (f + 3) * p.r0 ^ f = p.r1 ^ 3 * (p.r1 * p.r0) ^ f := by rw [Nat.mul_pow, pow_add]; ring
      _ ≤ (p.r1 + x) ^ 3 * ((p.r1 + x) * y) ^ f :=
        Nat.mul_le_mul (Nat.pow_le_pow_left (Nat.le_add_right _ _) _) (Nat.pow_le_pow_left hp _)
      _ = _ := by rw [Nat.mul_pow, pow_add]; ring
  | init _ d0 d1 h0 _ => exact absurd h0 hS
  | deposit _ d0 d1 s _ h0 h1 hs hpos =>
    have e0 : s * p.r0 ≤ d0 * p.supply := by
      rw [hs]; exact (Nat.mul_le_mul_right _ (min_le_left _ _)).trans (Nat.div_mul_le_self _ _)
    have e1 : s * p.r1 ≤ d1 * p.supply := by
      rw [hs]; exact (Nat.mul_le_mul_right _ (min_le_right _ _)).trans (Nat.div_mul_le_self _ _)
    exact of_both (by nlinarith) (by nlinarith)
  | withdraw _ s hs hpos h0 h1 =>
    have e0 := refund_le (r := p.r0) (s := s) hS
    have e1 := refund_le (r := p.r1) (s := s) hS
    refine of_both ?_ ?_
    · simp only
      rw [Nat.mul_sub, Nat.sub_mul]
      exact Nat.sub_le_sub_left e0 _
    · simp only
      rw [Nat.mul_sub, Nat.sub_mul]
      exact Nat.sub_le_sub_left e1 _

theorem sales0_cons_swap (b : Pool) (x : Nat) (cs : List (Pool × Call)) : sales0 ((b, .swap0 x) :: cs) = sales0 cs + 1 := by simp [sales0]

theorem sales0_cons_other (b : Pool) {l : Call} (h : ∀ x, l ≠ .swap0 x) (cs : List (Pool × Call)) : sales0 ((b, l) :: cs) = sales0 cs := by
  cases l with
  | swap0 x => exact absurd rfl (h x)
  | _ => simp [sales0]

theorem path_fall {R f : Nat} (hf' : f = 997) {p q : Pool} {cs : List (Pool × Call)} (h : Path p cs q) (hf : ∀ e ∈ cs, ¬ First e)
    (hn : ∀ e ∈ cs, ¬ Leak e) (hR : ∀ b x, (b, .swap0 x) ∈ cs → R ≤ left (b, .swap0 x)) :
    FallBy f ((R ^ (f + 3)) ^ sales0 cs) (((R + 1) ^ (f + 3)) ^ sales0 cs) p q := by
  induction h with
  | done _ _ h => simpa [sales0] using of_drift h
  | call p b q r l rest h1 h2 h3 ih =>
    have hfr : ∀ e ∈ rest, ¬ First e := fun e he => hf e (List.mem_cons_of_mem _ he)
    have ih := ih hfr (fun e he => hn e (List.mem_cons_of_mem _ he)) fun b x he => hR b x (List.mem_cons_of_mem _ he)
    have zero : q.supply = 0 → ∀ A B, FallBy f A B p r := by
      intro hq A B
      have := h3.none hfr hq
      unfold FallBy
      rw [this, Nat.zero_pow (by omega), Nat.mul_zero, Nat.zero_mul]
      exact Nat.zero_le _
    by_cases hq : q.supply = 0
    · exact zero hq _ _
    by_cases hb : b.supply = 0
    · refine zero ?_ _ _
      have hf := hf (b, l) List.mem_cons_self
      cases h2 with
      | swap0 | swap1 => exact hb
      | init => exact absurd hb hf
      | deposit _ _ _ _ h0 => exact absurd hb h0
      | withdraw _ s hs => simp only; omega
    · by_cases hl : ∃ x, l = .swap0 x
      · obtain ⟨x, rfl⟩ := hl
        rw [sales0_cons_swap, pow_succ' (R ^ _), pow_succ' ((R + 1) ^ _)]
        have hR := hR b x List.mem_cons_self
        cases h2 with
        | swap0 _ _ ho hp =>
          have := (of_drift h1).trans hb (act_swap0 ho hp hR hf')
          rw [Nat.one_mul, Nat.one_mul] at this
          exact this.trans hq ih
      · have hl : ∀ x, l ≠ .swap0 x := fun x e => hl ⟨x, e⟩
        rw [sales0_cons_other b hl]
        have := ((of_drift h1).trans hb (act_other h2 (hn _ List.mem_cons_self) hb hl)).trans hq ih
        simpa using this

/-- From the weighted value of a share to its worth at given prices. -/
theorem worth {f R n : Nat} (hf : 0 < f) {p q : Pool} (h : FallBy f ((R ^ (f + 3)) ^ n) (((R + 1) ^ (f + 3)) ^ n) p q) {P Q M : Nat}
    (hM : M ^ (f + 3 + f) * ((f + 3) ^ (f + 3) * f ^ f) ≤ (f + 3 + f) ^ (f + 3 + f) * ((Q * p.r1) ^ (f + 3) * (P * p.r0) ^ f)) :
    M * q.supply * (R - n) ≤ (P * q.r0 + Q * q.r1) * p.supply * R := by
  have hw := weighted (Q * q.r1) (P * q.r0) (i := f + 3) (n := f) (by omega) hf
  rw [Nat.add_comm (Q * q.r1)] at hw
  unfold FallBy at h
  generalize P * q.r0 + Q * q.r1 = V at *
  have hC : 0 < (f + 3) ^ (f + 3) * f ^ f := by positivity
  generalize (f + 3) ^ (f + 3) * f ^ f = C at *
  generalize (f + 3 + f) ^ (f + 3 + f) = D at *
  rw [Nat.mul_pow, Nat.mul_pow] at hM hw
  refine LeakL.weaken ?_
  rw [← Nat.pow_le_pow_iff_left (n := f + 3 + f) (by omega)]
  refine Nat.le_of_mul_le_mul_right (c := C) ?_ hC
  have hr : (R ^ f) ^ n ≤ ((R + 1) ^ f) ^ n := Nat.pow_le_pow_left (Nat.pow_le_pow_left (Nat.le_succ R) _) _
  have e1 : (M * q.supply * R ^ n) ^ (f + 3 + f) = M ^ (f + 3 + f) * q.supply ^ (f + 3 + f) * ((R ^ (f + 3)) ^ n * (R ^ f) ^ n) := by
    rw [Nat.mul_pow, Nat.mul_pow, ← Nat.mul_pow (R ^ (f + 3)), ← pow_add R, ← pow_mul, ← pow_mul, Nat.mul_comm n]
  have e2 : (V * p.supply * (R + 1) ^ n) ^ (f + 3 + f) =
      V ^ (f + 3 + f) * p.supply ^ (f + 3 + f) * (((R + 1) ^ (f + 3)) ^ n * ((R + 1) ^ f) ^ n) := by
    rw [Nat.mul_pow, Nat.mul_pow, ← Nat.mul_pow ((R + 1) ^ (f + 3)), ← pow_add (R + 1), ← pow_mul, ← pow_mul, Nat.mul_comm n]
  rw [e1, e2]
  generalize (R ^ (f + 3)) ^ n = A at *
  generalize ((R + 1) ^ (f + 3)) ^ n = B at *
  generalize (R ^ f) ^ n = A' at *
  generalize ((R + 1) ^ f) ^ n = B' at *
  generalize M ^ (f + 3 + f) = m at *
  generalize V ^ (f + 3 + f) = v at *
  generalize p.supply ^ (f + 3 + f) = S at *
  generalize q.supply ^ (f + 3 + f) = T at *
  generalize p.r1 ^ (f + 3) = a at *
  generalize p.r0 ^ f = b at *
  generalize q.r1 ^ (f + 3) = a' at *
  generalize q.r0 ^ f = b' at *
  generalize Q ^ (f + 3) = Q' at *
  generalize P ^ f = P' at *
  calc m * T * (A * A') * C = m * C * (T * (A * A')) := by ring
    _ ≤ D * (Q' * a * (P' * b)) * (T * (A * A')) := Nat.mul_le_mul_right _ hM
    _ = a * b * T * A * (D * Q' * P' * A') := by ring
    _ ≤ a' * b' * S * B * (D * Q' * P' * A') := Nat.mul_le_mul_right _ h
    _ ≤ a' * b' * S * B * (D * Q' * P' * B') := Nat.mul_le_mul_left _ (Nat.mul_le_mul_left _ hr)
    _ = Q' * a' * (P' * b') * D * (S * (B * B')) := by ring
    _ ≤ v * C * (S * (B * B')) := Nat.mul_le_mul_right _ hw
    _ = _ := by ring

/-- The pool with the assets exchanged. -/
def mirror (p : Pool) : Pool := ⟨p.r1, p.r0, p.supply⟩

/-- The same request to it. -/
def mirrorC : Call → Call
  | .swap0 x => .swap1 x
  | .swap1 x => .swap0 x
  | .deposit d0 d1 => .deposit d1 d0
  | .withdraw s => .withdraw s

def mirrorE (e : Pool × Call) : Pool × Call := (mirror e.1, mirrorC e.2)

theorem act_mirror {l : Call} {p q : Pool} (h : Act l p q) : Act (mirrorC l) (mirror p) (mirror q) := by
  cases h with
  | swap0 _ x ho h hp => exact .swap1 (mirror p) x ho h hp
  | swap1 _ x ho h hp => exact .swap0 (mirror p) x ho h hp
  | init _ d0 d1 hS h hm =>
    have := Act.init (mirror p) d1 d0 hS (by rwa [Nat.mul_comm]) (by rwa [Nat.mul_comm])
    rw [Nat.mul_comm d1] at this
    exact this
  | deposit _ d0 d1 s hS h0 h1 hs hpos => exact .deposit (mirror p) d1 d0 s hS h1 h0 (by rw [hs]; exact Nat.min_comm _ _) hpos
  | withdraw _ s hs hpos h0 h1 n0 n1 => exact .withdraw (mirror p) s hs hpos h1 h0 n1 n0

theorem path_mirror {p q : Pool} {cs : List (Pool × Call)} (h : Path p cs q) : Path (mirror p) (cs.map mirrorE) (mirror q) := by
  induction h with
  | done p q h => exact .done _ _ ⟨h.r1, h.r0, h.supply⟩
  | call p b q r l rest h1 h2 h3 ih => exact .call _ _ _ _ _ _ ⟨h1.r1, h1.r0, h1.supply⟩ (act_mirror h2) ih

theorem first_mirror (e : Pool × Call) : First (mirrorE e) ↔ First e := by
  obtain ⟨b, l⟩ := e
  cases l <;> exact Iff.rfl

theorem leak_mirror (e : Pool × Call) : Leak (mirrorE e) ↔ Leak e := by
  obtain ⟨b, l⟩ := e
  cases l <;> exact Iff.rfl

theorem sales_mirror (cs : List (Pool × Call)) : sales0 (cs.map mirrorE) = sales1 cs := by
  unfold sales0 sales1
  rw [List.countP_map]
  congr 1
  funext ⟨b, l⟩
  cases l <;> rfl

theorem path_fall1 {R f : Nat} (hf' : f = 997) {p q : Pool} {cs : List (Pool × Call)} (h : Path p cs q) (hf : ∀ e ∈ cs, ¬ First e)
    (hn : ∀ e ∈ cs, ¬ Leak e) (hR : ∀ b x, (b, .swap1 x) ∈ cs → R ≤ left (b, .swap1 x)) :
    FallBy f ((R ^ (f + 3)) ^ sales1 cs) (((R + 1) ^ (f + 3)) ^ sales1 cs) (mirror p) (mirror q) := by
  have := path_fall (R := R) hf' (path_mirror h)
    (by intro e he; obtain ⟨e, he', rfl⟩ := List.mem_map.mp he; exact fun h => hf e he' ((first_mirror e).mp h))
    (by intro e he; obtain ⟨e, he', rfl⟩ := List.mem_map.mp he; exact fun h => hn e he' ((leak_mirror e).mp h))
    (by
      intro b x he
      obtain ⟨⟨b', l⟩, he', e⟩ := List.mem_map.mp he
      cases l with
      | swap1 y =>
        simp only [mirrorE, mirrorC, Prod.mk.injEq, Call.swap0.injEq] at e
        obtain ⟨rfl, rfl⟩ := e
        exact hR b' y he'
      | swap0 | deposit | withdraw => simp [mirrorE, mirrorC] at e)
  rw [sales_mirror] at this
  exact this

/-- Without arithmetic in the exponents. -/
theorem plainly {f e g A B : Nat} {p q : Pool} (he : e = f + 3) (hg : g = f + 3 + f) (h : FallBy f A B p q) :
    p.r1 ^ e * p.r0 ^ f * q.supply ^ g * A ≤ q.r1 ^ e * q.r0 ^ f * p.supply ^ g * B := by
  subst he hg
  exact h

theorem worth_plainly {f e g R n : Nat} (he : e = f + 3) (hg : g = f + 3 + f) (hf : f = 997) {p q : Pool}
    (h : FallBy f ((R ^ (f + 3)) ^ n) (((R + 1) ^ (f + 3)) ^ n) p q) {P Q M x y : Nat} (hx : x = p.r0) (hy : y = p.r1)
    (hM : M ^ g * (e ^ e * f ^ f) ≤ g ^ g * ((Q * y) ^ e * (P * x) ^ f)) :
    M * q.supply * (R - n) ≤ (P * q.r0 + Q * q.r1) * p.supply * R := by
  subst he hg hx hy
  exact worth (by omega) h hM

end WeighL
open WeighL

/-- **C129.** Over any history (first deposits and leaking swaps excepted) not only the product of the reserves per share does not fall: because of
the fee `y * x ^ 0.997` does not, either, per share, where `x` is the first and `y` the second reserve; but for rounding, which costs at most one unit of
`y` per swap of the first asset. (Here `R` is a bound for what is left of the second asset after such a swap, and there are `n` of them.) -/
theorem C129_share0 {c : Chain} (hc : c.Lawful) {w w' : World} (hw : Reachable c w) {tr : List (World × Frame)} (hl : Hist c w tr w')
    {k : PairSite} (hk : k.Sound c w) (hf : ∀ e ∈ k.calls c tr, ¬ First e) (hn : ∀ e ∈ k.calls c tr, ¬ Leak e) {R : Nat}
    (hR : ∀ b x, (b, .swap0 x) ∈ k.calls c tr → R ≤ left (b, .swap0 x)) :
    k.Broken w' ∨ held w k.i1 k.a ^ 1000 * held w k.i0 k.a ^ 997 * supplyAt w' k.lt ^ 1997 * (R ^ 1000) ^ sales0 (k.calls c tr) ≤
      held w' k.i1 k.a ^ 1000 * held w' k.i0 k.a ^ 997 * supplyAt w k.lt ^ 1997 * ((R + 1) ^ 1000) ^ sales0 (k.calls c tr) := by
  rcases C21_constant_product hc hw hl hk with h | ⟨_, h⟩
  · exact .inl h
  · exact .inr (plainly rfl rfl (path_fall (f := 997) rfl h hf hn hR))

/-- **C129.** The same with the assets exchanged. -/
theorem C129_share1 {c : Chain} (hc : c.Lawful) {w w' : World} (hw : Reachable c w) {tr : List (World × Frame)} (hl : Hist c w tr w')
    {k : PairSite} (hk : k.Sound c w) (hf : ∀ e ∈ k.calls c tr, ¬ First e) (hn : ∀ e ∈ k.calls c tr, ¬ Leak e) {R : Nat}
    (hR : ∀ b x, (b, .swap1 x) ∈ k.calls c tr → R ≤ left (b, .swap1 x)) :
    k.Broken w' ∨ held w k.i0 k.a ^ 1000 * held w k.i1 k.a ^ 997 * supplyAt w' k.lt ^ 1997 * (R ^ 1000) ^ sales1 (k.calls c tr) ≤
      held w' k.i0 k.a ^ 1000 * held w' k.i1 k.a ^ 997 * supplyAt w k.lt ^ 1997 * ((R + 1) ^ 1000) ^ sales1 (k.calls c tr) := by
  rcases C21_constant_product hc hw hl hk with h | ⟨_, h⟩
  · exact .inl h
  · exact .inr (plainly rfl rfl (path_fall1 (f := 997) rfl h hf hn hR))

/-- **C129.** So, whatever arbitrage takes place, in either direction and in however many steps, with whatever deposits and withdrawals in
between: at prices `P` and `Q` what the pair holds per LP token is worth afterwards at least
`M = 1997 * ((Q * y / 1000) ^ 1000 * (P * x / 997) ^ 997) ^ (1 / 1997)` per LP token before, less the fraction `n / R`. -/
theorem C129_worth0 {c : Chain} (hc : c.Lawful) {w w' : World} (hw : Reachable c w) {tr : List (World × Frame)} (hl : Hist c w tr w')
    {k : PairSite} (hk : k.Sound c w) (hf : ∀ e ∈ k.calls c tr, ¬ First e) (hn : ∀ e ∈ k.calls c tr, ¬ Leak e) {R : Nat}
    (hR : ∀ b x, (b, .swap0 x) ∈ k.calls c tr → R ≤ left (b, .swap0 x)) {P Q M : Nat}
    (hM : M ^ 1997 * (1000 ^ 1000 * 997 ^ 997) ≤ 1997 ^ 1997 * ((Q * held w k.i1 k.a) ^ 1000 * (P * held w k.i0 k.a) ^ 997)) :
    k.Broken w' ∨ M * supplyAt w' k.lt * (R - sales0 (k.calls c tr)) ≤
      (P * held w' k.i0 k.a + Q * held w' k.i1 k.a) * supplyAt w k.lt * R := by
  rcases C21_constant_product hc hw hl hk with h | ⟨_, h⟩
  · exact .inl h
  · exact .inr (worth_plainly (f := 997) (e := 1000) (g := 1997) rfl rfl rfl (path_fall rfl h hf hn hR) rfl rfl hM)

/-- **C129.** The same with the assets exchanged. -/
theorem C129_worth1 {c : Chain} (hc : c.Lawful) {w w' : World} (hw : Reachable c w) {tr : List (World × Frame)} (hl : Hist c w tr w')
    {k : PairSite} (hk : k.Sound c w) (hf : ∀ e ∈ k.calls c tr, ¬ First e) (hn : ∀ e ∈ k.calls c tr, ¬ Leak e) {R : Nat}
    (hR : ∀ b x, (b, .swap1 x) ∈ k.calls c tr → R ≤ left (b, .swap1 x)) {P Q M : Nat}
    (hM : M ^ 1997 * (1000 ^ 1000 * 997 ^ 997) ≤ 1997 ^ 1997 * ((P * held w k.i0 k.a) ^ 1000 * (Q * held w k.i1 k.a) ^ 997)) :
    k.Broken w' ∨ M * supplyAt w' k.lt * (R - sales1 (k.calls c tr)) ≤
      (P * held w' k.i0 k.a + Q * held w' k.i1 k.a) * supplyAt w k.lt * R := by
  rcases C21_constant_product hc hw hl hk with h | ⟨_, h⟩
  · exact .inl h
  · rw [Nat.add_comm (P * _)]
    exact .inr (worth_plainly (f := 997) (e := 1000) (g := 1997) rfl rfl rfl (path_fall1 rfl h hf hn hR) rfl rfl hM)

open ZeroL (vault)

/-- `L` is at most `M`, of `C129_worth0`, less `n / R`. -/
def AtLeast0 (price : AssetInfo → Nat) (w : World) (k : PairSite) (cs : List (Pool × Call)) (L : ℚ) : Prop :=
  ∃ R M : Nat, 0 < R ∧ (∀ b x, (b, .swap0 x) ∈ cs → R ≤ left (b, .swap0 x)) ∧
    M ^ 1997 * (1000 ^ 1000 * 997 ^ 997) ≤
      1997 ^ 1997 * ((price k.i1 * held w k.i1 k.a) ^ 1000 * (price k.i0 * held w k.i0 k.a) ^ 997) ∧
    L * R ≤ M * (R - sales0 cs : Nat)

/-- The same with the assets exchanged. -/
def AtLeast1 (price : AssetInfo → Nat) (w : World) (k : PairSite) (cs : List (Pool × Call)) (L : ℚ) : Prop :=
  ∃ R M : Nat, 0 < R ∧ (∀ b x, (b, .swap1 x) ∈ cs → R ≤ left (b, .swap1 x)) ∧
    M ^ 1997 * (1000 ^ 1000 * 997 ^ 997) ≤
      1997 ^ 1997 * ((price k.i0 * held w k.i0 k.a) ^ 1000 * (price k.i1 * held w k.i1 k.a) ^ 997) ∧
    L * R ≤ M * (R - sales1 cs : Nat)

namespace WeighL

theorem scale {L M R n T T' V : ℚ} (hR : 0 < R) (hT : 0 ≤ T') (h : L * R ≤ M * n) (h' : M * T' * n ≤ V * T * R) : L * T' ≤ V * T := by
  have h1 := mul_le_mul_of_nonneg_right h hT
  have : L * T' * R ≤ V * T * R := by linarith
  exact le_of_mul_le_mul_right this hR

theorem none {g e f C D M : Nat} {L : ℚ} {R n x y P Q : Nat} (hL : 0 ≤ L) (hR : 0 < R) (hC : 0 < C) (he : 0 < e)
    (hM : M ^ g * C ≤ D * ((Q * y) ^ e * (P * x) ^ f)) (h : L * R ≤ M * n) (hy : y = 0) : L = 0 := by
  subst hy
  rw [Nat.mul_zero, Nat.zero_pow he, Nat.zero_mul, Nat.mul_zero] at hM
  have h0 : M ^ g = 0 := by
    rcases Nat.eq_zero_or_pos (M ^ g) with h | h
    · exact h
    · have := Nat.mul_pos h hC; omega
  have hM0 : M = 0 := eq_zero_of_pow_eq_zero h0
  subst hM0
  have hR' : (0 : ℚ) < R := by exact_mod_cast hR
  simp only [Nat.cast_zero, zero_mul] at h
  by_contra hc
  exact absurd h (not_le.mpr (mul_pos (lt_of_le_of_ne hL (Ne.symm hc)) hR'))

theorem site {c : Chain} (hc : c.Lawful) {w w' : World} (hw : Reachable c w) {tr : List (World × Frame)} (hl : Hist c w tr w')
    {k : PairSite} (hk : k.Sound c w) (hf : ∀ e ∈ k.calls c tr, ¬ First e) (hn : ∀ e ∈ k.calls c tr, ¬ Leak e)
    {price : AssetInfo → Nat} {L : ℚ} (h : AtLeast0 price w k (k.calls c tr) L ∨ AtLeast1 price w k (k.calls c tr) L) :
    k.Broken w' ∨ L * supplyAt w' k.lt ≤ vault price w' k * supplyAt w k.lt := by
  rcases h with ⟨R, M, h0, h1, h2, h3⟩ | ⟨R, M, h0, h1, h2, h3⟩
  · refine (C129_worth0 hc hw hl hk hf hn h1 h2).imp id fun h => ?_
    refine scale (by exact_mod_cast h0) (Nat.cast_nonneg _) h3 ?_
    unfold vault
    exact_mod_cast h
  · refine (C129_worth1 hc hw hl hk hf hn h1 h2).imp id fun h => ?_
    refine scale (by exact_mod_cast h0) (Nat.cast_nonneg _) h3 ?_
    unfold vault
    exact_mod_cast h

theorem zero {w : World} {k : PairSite} {cs : List (Pool × Call)} {price : AssetInfo → Nat} {L : ℚ} (hL : 0 ≤ L)
    (h : AtLeast0 price w k cs L ∨ AtLeast1 price w k cs L) (e : held w k.i0 k.a = 0 ∧ held w k.i1 k.a = 0) : L = 0 := by
  have hC : 0 < 1000 ^ 1000 * 997 ^ 997 := Nat.mul_pos (Nat.pow_pos (by norm_num)) (Nat.pow_pos (by norm_num))
  rcases h with ⟨R, M, h0, h1, h2, h3⟩ | ⟨R, M, h0, h1, h2, h3⟩
  · exact none hL h0 hC (by norm_num) h2 h3 e.2
  · exact none hL h0 hC (by norm_num) h2 h3 e.1

end WeighL

/-- **C129.** The bounds of C126 with these for the pools: what a group makes by arbitrage, over any number of transactions and pairs, while everybody else is
asleep, is at most what the shares of the others in the pools are worth at the beginning above `L`. -/
theorem C129_arbitrage {c : Chain} (hc : c.Lawful) {w w' : World} (hw : Reachable c w) {tr : List (World × Frame)} (hl : Hist c w tr w')
    {is : List AssetInfo} (his : is.Nodup) {ks : List PairSite} (hks : (ks.map PairSite.a).Nodup) (hk : ∀ k ∈ ks, k.Sound c w)
    (hin : ∀ k ∈ ks, k.i0 ∈ is ∧ k.i1 ∈ is)
    (hmint : ∀ i ∈ is, NoMore w w' i) {G : Finset Addr} (hG : ∀ k ∈ ks, k.a ∉ G)
    (hclean : ∀ k ∈ ks, (∀ i ∈ is, i ≠ k.i0 → i ≠ k.i1 → held w i k.a = 0) ∧
      ∀ k' ∈ ks, held w (.token k'.lt) k.a = 0)
    (hown : ∀ k ∈ ks, supplyAt w k.lt = 0 → held w k.i0 k.a = 0 ∧ held w k.i1 k.a = 0)
    (hsleep : ∀ a ∉ G, (∀ k ∈ ks, a ≠ k.a) → (∃ i ∈ is ++ ks.map shareOf, held w i a ≠ 0) →
      (∀ e ∈ tr, e.2.actor ≠ a) ∧ (∀ t, .token t ∈ is ++ ks.map shareOf → Careful w a t) ∧ ∀ d, .native d ∈ is → w.bal d a ≤ w'.bal d a)
    (hn : ∀ k ∈ ks, ∀ e ∈ k.calls c tr, ¬ Leak e) (price : AssetInfo → Nat) {L : PairSite → ℚ}
    (hp : ∀ k ∈ ks, 0 ≤ L k ∧ (AtLeast0 price w k (k.calls c tr) (L k) ∨ AtLeast1 price w k (k.calls c tr) (L k))) :
    (∃ t, .token t ∈ is ++ ks.map shareOf ∧ ∃ a adm, w'.contracts a = some ⟨adm, .other⟩ ∧ (a = t ∨ ∃ U ∉ G, Allows w U t a)) ∨
    (∃ k ∈ ks, k.Broken w') ∨ ∑ a ∈ G, ownsOf price is ks a w' ≤ ∑ a ∈ G, ownsOf price is ks a w +
      (ks.map fun k => (1 - ((∑ a ∈ G, held w (.token k.lt) a : Nat) : ℚ) / supplyAt w k.lt) * (vault price w k - L k)).sum :=
  ZeroL.group hc hw hl his hks hk hin hmint hG hclean hsleep price fun k hk' =>
    ⟨(hp k hk').1, fun e => WeighL.zero (hp k hk').1 (hp k hk').2 (hown k hk' e), fun hf => site hc hw hl (hk k hk') hf (hn k hk') (hp k hk').2⟩

/-- **C129.** And what is left, at any prices, to somebody who does nothing: their tokens, and their part of `L` for every pool. -/
theorem C129_sleeper {c : Chain} (hc : c.Lawful) {w w' : World} (hw : Reachable c w) {tr : List (World × Frame)}
    (hl : Hist c w tr w') {ts : List Addr} {ks : List PairSite} {U : Addr} (hU : ∀ e ∈ tr, e.2.actor ≠ U)
    (hs : ∀ t ∈ ts ++ ks.map PairSite.lt, Careful w U t) (hk : ∀ k ∈ ks, k.Sound c w)
    (hn : ∀ k ∈ ks, ∀ e ∈ k.calls c tr, ¬ Leak e) (price : AssetInfo → Nat) {L : PairSite → ℚ}
    (hp : ∀ k ∈ ks, AtLeast0 price w k (k.calls c tr) (L k) ∨ AtLeast1 price w k (k.calls c tr) (L k)) :
    (∃ t ∈ ts ++ ks.map PairSite.lt, ∃ a adm, w'.contracts a = some ⟨adm, .other⟩ ∧ (a = t ∨ Allows w U t a)) ∨
    (∃ k ∈ ks, k.Broken w') ∨
    (ts.map fun t => (price (.token t) * held w (.token t) U : ℚ)).sum +
      (ks.map fun k => (held w (.token k.lt) U : ℚ) / supplyAt w k.lt * L k).sum ≤ worthOf price ts ks U w' :=
  ZeroL.sleeper hc hw hl hU hs price fun k hk' hf => site hc hw hl (hk k hk') hf (hn k hk') (hp k hk')

/-! ### Cases that meet the hypotheses -/

namespace Demo

private theorem left_hunt : left (⟨10000, 20000, 14142⟩, .swap1 8284) = 7080 := by decide +kernel

private theorem quartet_atLeast : AtLeast1 quartet night siteAB (siteAB.calls chain (traces hunt night)) 56589 := by
  rw [hunt_calls]
  refine ⟨7080, 56597, by norm_num, ?_, by decide +kernel, ?_⟩
  · intro b x h
    rw [List.mem_singleton.mp h, left_hunt]
  · decide +kernel

example := C129_share1 lawful night_reachable (hist_runs netted_run) sound_night (by rw [hunt_calls]; simp [First])
  (by rw [hunt_calls]; simp [Leak, Slip]) (R := 7080) (by rw [hunt_calls]; intro b x h; rw [List.mem_singleton.mp h, left_hunt])

example := C129_worth1 lawful night_reachable (hist_runs netted_run) sound_night (by rw [hunt_calls]; simp [First])
  (by rw [hunt_calls]; simp [Leak, Slip]) (R := 7080) (by rw [hunt_calls]; intro b x h; rw [List.mem_singleton.mp h, left_hunt])
  (P := 4) (Q := 1) (M := 56597) (by decide +kernel)

/-- The bound of C126 is 56568; what is left is worth 56604, C129 says at least 56589. -/
example : vault quartet netted siteAB = 56604 := by decide +kernel

example := C129_arbitrage lawful night_reachable (hist_runs netted_run) (is := [.token tA, .token tB]) (by decide +kernel)
  (ks := [siteAB]) (by decide +kernel) (fun k hk => by rw [List.mem_singleton.mp hk]; exact sound_night)
  (fun k hk => by rw [List.mem_singleton.mp hk]; exact ⟨by simp [siteAB], by simp [siteAB]⟩)
  (fun i hi => by
    simp only [List.mem_cons, List.not_mem_nil, or_false] at hi
    rcases hi with rfl | rfl
    · exact (by decide +kernel : supplyAt netted tA ≤ supplyAt night tA)
    · exact (by decide +kernel : supplyAt netted tB ≤ supplyAt night tB))
  (G := {user}) (by decide +kernel) (by decide +kernel) (by decide +kernel)
  (by
    intro a ha hk ⟨i, hi, h0⟩
    have h : a ∈ [user, user2, siteAB.a, siteBC.a, siteAC.a] := by
      simp only [shareOf, List.map_cons, List.map_nil, List.cons_append, List.nil_append, List.mem_cons, List.not_mem_nil, or_false] at hi
      rcases hi with rfl | rfl | rfl <;> exact holders_night _ (by simp [three]) a h0
    suffices ha : a ∈ [user2, siteBC.a, siteAC.a] from (idle_hunt a ha).imp id fun h => ⟨h, fun d hd => by simp at hd⟩
    simp only [List.mem_cons, List.not_mem_nil, or_false] at h
    rcases h with rfl | rfl | rfl | rfl | rfl
    · exact absurd (Finset.mem_singleton_self _) ha
    · simp
    · exact absurd rfl (hk siteAB (by simp))
    · simp
    · simp)
  (by
    intro k hk
    rw [List.mem_singleton.mp hk, hunt_calls]
    simp [Leak, Slip])
  quartet (L := fun _ => 56589) (fun k hk => ⟨by norm_num, .inr (by rw [List.mem_singleton.mp hk]; exact quartet_atLeast)⟩)

example := C129_sleeper lawful night_reachable (hist_runs netted_run) (ts := [tA, tB]) (ks := [siteAB]) (U := user2) (idle_hunt _ (by simp)).1
  (by
    intro t ht
    refine (idle_hunt user2 (by simp)).2 t ?_
    simpa [shareOf] using ht) (fun k hk => by rw [List.mem_singleton.mp hk]; exact sound_night)
  (by
    intro k hk
    rw [List.mem_singleton.mp hk, hunt_calls]
    simp [Leak, Slip])
  quartet (L := fun _ => 56589) (fun k hk => .inr (by rw [List.mem_singleton.mp hk]; exact quartet_atLeast))

example := C129_share0 lawful deployed_reachable (hist_runs oneWay_run) sound_AB (by rw [oneWay_calls]; simp [First])
  (by rw [oneWay_calls]; simp [Leak, Slip]) (R := 18182) (by
    rw [oneWay_calls]; intro b x h; rw [List.mem_singleton.mp h]; decide +kernel)

example := C129_worth0 lawful deployed_reachable (hist_runs oneWay_run) sound_AB (by rw [oneWay_calls]; simp [First])
  (by rw [oneWay_calls]; simp [Leak, Slip]) (R := 18182) (by
    rw [oneWay_calls]; intro b x h; rw [List.mem_singleton.mp h]; decide +kernel)
  (P := 1) (Q := 1) (M := 28298) (by decide +kernel)

end Demo

end Halo
