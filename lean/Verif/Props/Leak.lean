import Verif.Props.Provider
/-! # Leaks are negligible (C94)

Swaps can lower the value of a share (C01, C20, C22 are false in general): exactly the leaks, `Leak`. This bounds what any number of them
can do. -/

namespace Halo
open _root_.Halo.Spec

instance (o a x : Nat) : Decidable (Slip o a x) := inferInstanceAs (Decidable (_ ∧ _ ∧ _))

instance : DecidablePred Leak
  | (b, .swap0 x) => inferInstanceAs (Decidable (Slip b.r0 b.r1 x))
  | (b, .swap1 x) => inferInstanceAs (Decidable (Slip b.r1 b.r0 x))
  | (_, .deposit _ _) => .isFalse id
  | (_, .withdraw _) => .isFalse id

/-- What the pool holds of the asset that a swap asks for. -/
def toPay : Pool × Call → Nat
  | (b, .swap0 _) => b.r1
  | (b, .swap1 _) => b.r0
  | _ => 0

/-- What it holds of that asset afterwards. -/
def left : Pool × Call → Nat
  | (b, .swap0 x) => b.r1 - payout b.r0 b.r1 x
  | (b, .swap1 x) => b.r0 - payout b.r1 b.r0 x
  | _ => 0

/-- The number of leaks. -/
def leaks (cs : List (Pool × Call)) : Nat := cs.countP fun e => decide (Leak e)

namespace LeakL

/-- The value of a share falls by at most the factor `A / B`. -/
def LossBy (A B : Nat) (p q : Pool) : Prop := p.r0 * p.r1 * q.supply ^ 2 * A ≤ q.r0 * q.r1 * p.supply ^ 2 * B

theorem LossBy.trans {A B C D : Nat} {p b q : Pool} (hb : b.supply ≠ 0) (h1 : LossBy A B p b) (h2 : LossBy C D b q) :
    LossBy (A * C) (B * D) p q := by
  unfold LossBy at *
  refine Nat.le_of_mul_le_mul_right (c := b.supply ^ 2) ?_ (by positivity)
  calc p.r0 * p.r1 * q.supply ^ 2 * (A * C) * b.supply ^ 2 = p.r0 * p.r1 * b.supply ^ 2 * A * (q.supply ^ 2 * C) := by ring
    _ ≤ b.r0 * b.r1 * p.supply ^ 2 * B * (q.supply ^ 2 * C) := Nat.mul_le_mul_right _ h1
    _ = b.r0 * b.r1 * q.supply ^ 2 * C * (p.supply ^ 2 * B) := by ring
    _ ≤ q.r0 * q.r1 * b.supply ^ 2 * D * (p.supply ^ 2 * B) := Nat.mul_le_mul_right _ h2
    _ = q.r0 * q.r1 * p.supply ^ 2 * (B * D) * b.supply ^ 2 := by ring

theorem of_noLoss {p q : Pool} (h : p.NoLoss q) : LossBy 1 1 p q := by
  unfold LossBy
  unfold Pool.NoLoss at h
  omega

/-- One leak: what is lost is less than the offered reserve over `10^18`. -/
theorem slip_bound {o a x R : Nat} (ho : o ≠ 0) (hR' : R ≤ a - payout o a x) :
    o * a * (R * 10 ^ 18) ≤ (o + x) * (a - payout o a x) * (R * 10 ^ 18 + 1) := by
  have hb : o * a * 10 ^ 18 < (o + x) * (a - payout o a x) * 10 ^ 18 + (o + x) := by
    unfold payout
    rw [gross_eq]
    exact product_bound ho
  generalize a - payout o a x = b at hb hR'
  generalize o + x = y at hb
  generalize o * a = z at hb
  calc z * (R * 10 ^ 18) = z * 10 ^ 18 * R := by ring
    _ ≤ (y * b * 10 ^ 18 + y) * R := Nat.mul_le_mul_right _ hb.le
    _ = y * b * (R * 10 ^ 18) + y * R := by ring
    _ ≤ y * b * (R * 10 ^ 18) + y * b := Nat.add_le_add_left (Nat.mul_le_mul_left _ hR') _
    _ = y * b * (R * 10 ^ 18 + 1) := by ring

theorem leak_bound {l : Call} {p q : Pool} {R : Nat} (h : Act l p q) (hl : Leak (p, l)) (hR : R ≤ left (p, l)) :
    LossBy (R * 10 ^ 18) (R * 10 ^ 18 + 1) p q ∧ p.r0 * p.r1 * (R * 10 ^ 18) ≤ q.r0 * q.r1 * (R * 10 ^ 18 + 1) ∧ q.supply = p.supply := by
  have key : p.r0 * p.r1 * (R * 10 ^ 18) ≤ q.r0 * q.r1 * (R * 10 ^ 18 + 1) ∧ q.supply = p.supply := by
    cases h with
    | swap0 _ x ho h => exact ⟨slip_bound ho hR, rfl⟩
    | swap1 _ x ho h =>
      have := slip_bound ho hR
      refine ⟨?_, rfl⟩
      simp only
      rw [Nat.mul_comm p.r0, Nat.mul_comm (p.r0 - _)]
      exact this
    | init | deposit | withdraw => exact hl.elim
  refine ⟨?_, key⟩
  unfold LossBy
  rw [key.2]
  calc p.r0 * p.r1 * p.supply ^ 2 * (R * 10 ^ 18) = p.r0 * p.r1 * (R * 10 ^ 18) * p.supply ^ 2 := by ring
    _ ≤ q.r0 * q.r1 * (R * 10 ^ 18 + 1) * p.supply ^ 2 := Nat.mul_le_mul_right _ key.1
    _ = q.r0 * q.r1 * p.supply ^ 2 * (R * 10 ^ 18 + 1) := by ring

theorem leaks_cons (e : Pool × Call) (cs : List (Pool × Call)) : leaks (e :: cs) = leaks cs + if Leak e then 1 else 0 := by
  unfold leaks
  rw [List.countP_cons]
  simp

theorem path_loss {R : Nat} {p q : Pool} {cs : List (Pool × Call)} (h : Path p cs q) (hf : ∀ e ∈ cs, ¬ First e)
    (hR : ∀ e ∈ cs, Leak e → R ≤ left e) : LossBy ((R * 10 ^ 18) ^ leaks cs) ((R * 10 ^ 18 + 1) ^ leaks cs) p q := by
  induction h with
  | done _ _ h => simpa [leaks] using of_noLoss h.noLoss
  | call p b q r l rest h1 h2 h3 ih =>
    have hf' : ∀ e ∈ rest, ¬ First e := fun e he => hf e (List.mem_cons_of_mem _ he)
    have ih := ih hf' fun e he => hR e (List.mem_cons_of_mem _ he)
    have zero : q.supply = 0 → ∀ A B, LossBy A B p r := by
      intro hq A B
      have := h3.none hf' hq
      simp [LossBy, this]
    by_cases hq : q.supply = 0
    · exact zero hq _ _
    by_cases hb : b.supply = 0
    · refine zero ?_ _ _
      have hf := hf (b, l) List.mem_cons_self
      cases h2 with
      | swap0 | swap1 => exact hb
      | init => exact absurd hb hf
      | deposit _ _ _ _ h0 => exact absurd hb h0
      | withdraw _ s hs => simp only; omega
    · rw [leaks_cons]
      by_cases hl : Leak (b, l)
      · rw [if_pos hl, pow_succ' (R * 10 ^ 18), pow_succ' (R * 10 ^ 18 + 1)]
        have := (of_noLoss h1.noLoss).trans hb (leak_bound h2 hl (hR _ List.mem_cons_self hl)).1
        rw [Nat.one_mul, Nat.one_mul] at this
        exact this.trans hq ih
      · rw [if_neg hl, Nat.add_zero]
        have := ((of_noLoss h1.noLoss).trans hb (of_noLoss (noLoss_of_noLeak h2 hb hl))).trans hq ih
        simpa using this

theorem bernoulli (M : Nat) : ∀ n, (M + 1) ^ n * (M - n) ≤ M ^ n * M
  | 0 => by simp
  | n + 1 => by
    have ih := bernoulli M n
    rcases Nat.lt_or_ge M (n + 1) with h | h
    · rw [Nat.sub_eq_zero_of_le h.le]; simp
    obtain ⟨d, rfl⟩ := Nat.exists_eq_add_of_le h
    have e1 : n + 1 + d - (n + 1) = d := by omega
    have e2 : n + 1 + d - n = d + 1 := by omega
    rw [e1]
    rw [e2] at ih
    have hd : d ≤ n + 1 + d := by omega
    generalize n + 1 + d = M at *
    calc (M + 1) ^ (n + 1) * d = (M + 1) ^ n * (M * d + d) := by ring
      _ ≤ (M + 1) ^ n * (M * d + M) := Nat.mul_le_mul_left _ (Nat.add_le_add_left hd _)
      _ = (M + 1) ^ n * (d + 1) * M := by ring
      _ ≤ M ^ n * M * M := Nat.mul_le_mul_right _ ih
      _ = M ^ (n + 1) * M := by ring

theorem weaken {M n x y : Nat} (h : x * M ^ n ≤ y * (M + 1) ^ n) : x * (M - n) ≤ y * M := by
  rcases Nat.eq_zero_or_pos M with rfl | hM
  · simp
  refine Nat.le_of_mul_le_mul_right (c := M ^ n) ?_ (by positivity)
  calc x * (M - n) * M ^ n = x * M ^ n * (M - n) := by ring
    _ ≤ y * (M + 1) ^ n * (M - n) := Nat.mul_le_mul_right _ h
    _ = y * ((M + 1) ^ n * (M - n)) := by ring
    _ ≤ y * (M ^ n * M) := Nat.mul_le_mul_left _ (bernoulli M n)
    _ = y * M * M ^ n := by ring

/-- How far the shares are backed. -/
def BackedBy (A B : Nat) (p : Pool) : Prop := p.supply ^ 2 * A ≤ p.r0 * p.r1 * B

theorem act_backed {l : Call} {p q : Pool} {A B : Nat} (hAB : A ≤ B) (h : Act l p q) (hl : ¬ Leak (p, l)) (hb : BackedBy A B p) :
    BackedBy A B q := by
  unfold BackedBy at *
  by_cases hS : p.supply = 0
  · cases h with
    | swap0 => simp [hS]
    | swap1 => simp [hS]
    | init _ d0 d1 _ _ =>
      refine Nat.mul_le_mul ?_ hAB
      calc Nat.sqrt (d0 * d1) ^ 2 ≤ d0 * d1 := Nat.sqrt_le' _
        _ ≤ (p.r0 + d0) * (p.r1 + d1) := Nat.mul_le_mul (Nat.le_add_left _ _) (Nat.le_add_left _ _)
    | deposit _ _ _ _ h0 => exact absurd hS h0
    | withdraw s => simp [hS]
  · have hn := noLoss_of_noLeak h hS hl
    unfold Pool.NoLoss at hn
    rcases Nat.eq_zero_or_pos (p.r0 * p.r1) with hz | hpos
    · rw [hz, Nat.zero_mul] at hb
      have : A = 0 := by
        rcases Nat.mul_eq_zero.mp (Nat.le_zero.mp hb) with h | h
        · exact absurd (pow_eq_zero_iff (two_ne_zero)|>.mp h) hS
        · exact h
      rw [this]; simp
    refine Nat.le_of_mul_le_mul_left ?_ hpos
    calc p.r0 * p.r1 * (q.supply ^ 2 * A) = p.r0 * p.r1 * q.supply ^ 2 * A := by ring
      _ ≤ q.r0 * q.r1 * p.supply ^ 2 * A := Nat.mul_le_mul_right _ hn
      _ = q.r0 * q.r1 * (p.supply ^ 2 * A) := by ring
      _ ≤ q.r0 * q.r1 * (p.r0 * p.r1 * B) := Nat.mul_le_mul_left _ hb
      _ = p.r0 * p.r1 * (q.r0 * q.r1 * B) := by ring

theorem path_backed {R : Nat} {p q : Pool} {cs : List (Pool × Call)} (h : Path p cs q) (hR : ∀ e ∈ cs, Leak e → R ≤ left e) :
    ∀ {A B : Nat}, A ≤ B → BackedBy A B p → BackedBy (A * (R * 10 ^ 18) ^ leaks cs) (B * (R * 10 ^ 18 + 1) ^ leaks cs) q := by
  induction h with
  | done p q h =>
    intro A B _ hb
    simp only [leaks, List.countP_nil, pow_zero, Nat.mul_one]
    unfold BackedBy at *
    calc q.supply ^ 2 * A ≤ p.supply ^ 2 * A := Nat.mul_le_mul_right _ (Nat.pow_le_pow_left h.supply 2)
      _ ≤ p.r0 * p.r1 * B := hb
      _ ≤ q.r0 * q.r1 * B := Nat.mul_le_mul_right _ (Nat.mul_le_mul h.r0 h.r1)
  | call p b q r l rest h1 h2 h3 ih =>
    intro A B hAB hb
    have hb : BackedBy A B b := by
      unfold BackedBy at *
      calc b.supply ^ 2 * A ≤ p.supply ^ 2 * A := Nat.mul_le_mul_right _ (Nat.pow_le_pow_left h1.supply 2)
        _ ≤ p.r0 * p.r1 * B := hb
        _ ≤ b.r0 * b.r1 * B := Nat.mul_le_mul_right _ (Nat.mul_le_mul h1.r0 h1.r1)
    have ih := @ih fun e he => hR e (List.mem_cons_of_mem _ he)
    rw [leaks_cons]
    by_cases hl : Leak (b, l)
    · rw [if_pos hl, pow_succ' (R * 10 ^ 18), pow_succ' (R * 10 ^ 18 + 1), ← Nat.mul_assoc A (R * 10 ^ 18), ← Nat.mul_assoc B]
      refine ih (Nat.mul_le_mul hAB (Nat.le_succ _)) ?_
      obtain ⟨_, hp, hS⟩ := leak_bound h2 hl (hR _ List.mem_cons_self hl)
      unfold BackedBy at *
      rw [hS]
      calc b.supply ^ 2 * (A * (R * 10 ^ 18)) = b.supply ^ 2 * A * (R * 10 ^ 18) := by ring
        _ ≤ b.r0 * b.r1 * B * (R * 10 ^ 18) := Nat.mul_le_mul_right _ hb
        _ = b.r0 * b.r1 * (R * 10 ^ 18) * B := by ring
        _ ≤ q.r0 * q.r1 * (R * 10 ^ 18 + 1) * B := Nat.mul_le_mul_right _ hp
        _ = q.r0 * q.r1 * (B * (R * 10 ^ 18 + 1)) := by ring
    · rw [if_neg hl, Nat.add_zero]
      exact ih hAB (act_backed hAB h2 hl hb)

theorem product_step {p b q r A B M : Nat} (hb : p ≤ b) (hp : b * M ≤ q * (M + 1)) (ih : q * A ≤ r * B) :
    p * (A * M) ≤ r * (B * (M + 1)) := by
  calc p * (A * M) ≤ b * (A * M) := Nat.mul_le_mul_right _ hb
    _ = b * M * A := by ring
    _ ≤ q * (M + 1) * A := Nat.mul_le_mul_right _ hp
    _ = q * A * (M + 1) := by ring
    _ ≤ r * B * (M + 1) := Nat.mul_le_mul_right _ ih
    _ = r * (B * (M + 1)) := by ring

/-- Swaps only: the product of the reserves. -/
theorem path_product {R : Nat} {p q : Pool} {cs : List (Pool × Call)} (h : Path p cs q) (hs : ∀ e ∈ cs, IsSwap e)
    (hR : ∀ e ∈ cs, Leak e → R ≤ left e) :
    p.r0 * p.r1 * (R * 10 ^ 18) ^ leaks cs ≤ q.r0 * q.r1 * (R * 10 ^ 18 + 1) ^ leaks cs := by
  induction h with
  | done p q h => simpa [leaks] using Nat.mul_le_mul h.r0 h.r1
  | call p b q r l rest h1 h2 h3 ih =>
    have ih := ih (fun e he => hs e (List.mem_cons_of_mem _ he)) fun e he => hR e (List.mem_cons_of_mem _ he)
    have hb := Nat.mul_le_mul h1.r0 h1.r1
    rw [leaks_cons]
    by_cases hl : Leak (b, l)
    · obtain ⟨_, hp, _⟩ := leak_bound h2 hl (hR _ List.mem_cons_self hl)
      rw [if_pos hl, pow_succ (R * 10 ^ 18), pow_succ (R * 10 ^ 18 + 1)]
      exact product_step hb hp ih
    · rw [if_neg hl, Nat.add_zero]
      refine le_trans (Nat.mul_le_mul_right _ (hb.trans ?_)) ih
      have hs := hs (b, l) List.mem_cons_self
      cases h2 with
      | swap0 _ x ho h => exact Nat.le_of_not_lt fun hlt => hl ((payout_slip ho).mp hlt)
      | swap1 _ x ho h =>
        rw [Nat.mul_comm b.r0, Nat.mul_comm (b.r0 - _)]
        exact Nat.le_of_not_lt fun hlt => hl ((payout_slip ho).mp hlt)
      | init | deposit | withdraw => exact hs.elim

end LeakL
open LeakL

/-- **C94.** A leak takes at most 333 units. -/
theorem C94_small {e : Pool × Call} {q : Pool} (h : Act e.2 e.1 q) (hl : Leak e) : toPay e ≤ left e + 333 := by
  obtain ⟨p, l⟩ := e
  cases h with
  | swap0 _ x ho h =>
    have hg : gross p.r0 p.r1 x < 334 := (Slip.dust ho hl).1
    simp only [toPay, left, payout]
    omega
  | swap1 _ x ho h =>
    have hg : gross p.r1 p.r0 x < 334 := (Slip.dust ho hl).1
    simp only [toPay, left, payout]
    omega
  | init | deposit | withdraw => exact hl.elim

/-- **C94.** Over any history without a deposit to a pair without LP tokens, in which every leaking swap left at least `R` units of
the asset it asked for: the value of a share, `reserve0 * reserve1 / supply^2`, has fallen by at most the fraction `n / (R * 10^18)`,
where `n` is the number of leaks. -/
theorem C94_share_value {c : Chain} (hc : c.Lawful) {w w' : World} (hw : Reachable c w) {tr : List (World × Frame)} (hl : Hist c w tr w')
    {k : PairSite} (hk : k.Sound c w) (hf : ∀ e ∈ k.calls c tr, ¬ First e) {R : Nat}
    (hR : ∀ e ∈ k.calls c tr, Leak e → R ≤ left e) :
    k.Broken w' ∨ (k.pool w).r0 * (k.pool w).r1 * (k.pool w').supply ^ 2 * (R * 10 ^ 18 - leaks (k.calls c tr)) ≤
      (k.pool w').r0 * (k.pool w').r1 * (k.pool w).supply ^ 2 * (R * 10 ^ 18) := by
  rcases C21_constant_product hc hw hl hk with h | ⟨_, h⟩
  · exact .inl h
  · exact .inr (weaken (path_loss h hf hR))

/-- **C94.** The same for the backing of the shares: from any moment at which `supply^2 ≤ reserve0 * reserve1`, in particular when there
were none, first deposits included. -/
theorem C94_backed {c : Chain} (hc : c.Lawful) {w w' : World} (hw : Reachable c w) {tr : List (World × Frame)} (hl : Hist c w tr w')
    {k : PairSite} (hk : k.Sound c w) {R : Nat} (hR : ∀ e ∈ k.calls c tr, Leak e → R ≤ left e)
    (hb : (k.pool w).supply ^ 2 ≤ (k.pool w).r0 * (k.pool w).r1) :
    k.Broken w' ∨ (k.pool w').supply ^ 2 * (R * 10 ^ 18 - leaks (k.calls c tr)) ≤ (k.pool w').r0 * (k.pool w').r1 * (R * 10 ^ 18) := by
  rcases C21_constant_product hc hw hl hk with h | ⟨_, h⟩
  · exact .inl h
  · have := path_backed h hR (A := 1) (B := 1) (Nat.le_refl _) (by unfold BackedBy; omega)
    unfold BackedBy at this
    rw [Nat.one_mul, Nat.one_mul] at this
    exact .inr (weaken this)

/-- **C94.** And for the product of the reserves, when there were only swaps. -/
theorem C94_product {c : Chain} (hc : c.Lawful) {w w' : World} (hw : Reachable c w) {tr : List (World × Frame)} (hl : Hist c w tr w')
    {k : PairSite} (hk : k.Sound c w) (hs : ∀ e ∈ k.calls c tr, IsSwap e) {R : Nat}
    (hR : ∀ e ∈ k.calls c tr, Leak e → R ≤ left e) :
    k.Broken w' ∨ held w k.i0 k.a * held w k.i1 k.a * (R * 10 ^ 18 - leaks (k.calls c tr)) ≤
      held w' k.i0 k.a * held w' k.i1 k.a * (R * 10 ^ 18) := by
  rcases C21_constant_product hc hw hl hk with h | ⟨_, h⟩
  · exact .inl h
  · exact .inr (weaken (LeakL.path_product h hs hR))

/-- **C94.** For those who keep their LP tokens, however others trade, deposit and withdraw: if a share stands for no more of one asset
than before, it stands for at least as much of the other, up to the same fraction. -/
theorem C94_stay0 {c : Chain} (hc : c.Lawful) {w w' : World} (hw : Reachable c w) {tr : List (World × Frame)} (hl : Hist c w tr w')
    {k : PairSite} (hk : k.Sound c w) (hf : ∀ e ∈ k.calls c tr, ¬ First e) {R : Nat}
    (hR : ∀ e ∈ k.calls c tr, Leak e → R ≤ left e) (h0 : held w k.i0 k.a ≠ 0) (hS : supplyAt w' k.lt ≠ 0)
    (hle : held w' k.i0 k.a * supplyAt w k.lt ≤ held w k.i0 k.a * supplyAt w' k.lt) :
    k.Broken w' ∨ held w k.i1 k.a * supplyAt w' k.lt * (R * 10 ^ 18 - leaks (k.calls c tr)) ≤
      held w' k.i1 k.a * supplyAt w k.lt * (R * 10 ^ 18) := by
  refine (C94_share_value hc hw hl hk hf hR).imp id fun h => ?_
  simp only [PairSite.pool] at h
  generalize R * 10 ^ 18 - leaks (k.calls c tr) = A at *
  generalize R * 10 ^ 18 = B at *
  refine Nat.le_of_mul_le_mul_left (c := held w k.i0 k.a * supplyAt w' k.lt) ?_ (by positivity)
  calc held w k.i0 k.a * supplyAt w' k.lt * (held w k.i1 k.a * supplyAt w' k.lt * A)
      = held w k.i0 k.a * held w k.i1 k.a * supplyAt w' k.lt ^ 2 * A := by ring
    _ ≤ held w' k.i0 k.a * held w' k.i1 k.a * supplyAt w k.lt ^ 2 * B := h
    _ = held w' k.i0 k.a * supplyAt w k.lt * (held w' k.i1 k.a * supplyAt w k.lt * B) := by ring
    _ ≤ held w k.i0 k.a * supplyAt w' k.lt * (held w' k.i1 k.a * supplyAt w k.lt * B) := Nat.mul_le_mul_right _ hle

/-- **C94.** The same with the assets exchanged. -/
theorem C94_stay1 {c : Chain} (hc : c.Lawful) {w w' : World} (hw : Reachable c w) {tr : List (World × Frame)} (hl : Hist c w tr w')
    {k : PairSite} (hk : k.Sound c w) (hf : ∀ e ∈ k.calls c tr, ¬ First e) {R : Nat}
    (hR : ∀ e ∈ k.calls c tr, Leak e → R ≤ left e) (h1 : held w k.i1 k.a ≠ 0) (hS : supplyAt w' k.lt ≠ 0)
    (hle : held w' k.i1 k.a * supplyAt w k.lt ≤ held w k.i1 k.a * supplyAt w' k.lt) :
    k.Broken w' ∨ held w k.i0 k.a * supplyAt w' k.lt * (R * 10 ^ 18 - leaks (k.calls c tr)) ≤
      held w' k.i0 k.a * supplyAt w k.lt * (R * 10 ^ 18) := by
  refine (C94_share_value hc hw hl hk hf hR).imp id fun h => ?_
  simp only [PairSite.pool] at h
  generalize R * 10 ^ 18 - leaks (k.calls c tr) = A at *
  generalize R * 10 ^ 18 = B at *
  refine Nat.le_of_mul_le_mul_left (c := held w k.i1 k.a * supplyAt w' k.lt) ?_ (by positivity)
  calc held w k.i1 k.a * supplyAt w' k.lt * (held w k.i0 k.a * supplyAt w' k.lt * A)
      = held w k.i1 k.a * held w k.i0 k.a * supplyAt w' k.lt ^ 2 * A := by ring
    _ ≤ held w' k.i1 k.a * held w' k.i0 k.a * supplyAt w k.lt ^ 2 * B := by
      rwa [Nat.mul_comm (held w k.i1 k.a), Nat.mul_comm (held w' k.i1 k.a)]
    _ = held w' k.i1 k.a * supplyAt w k.lt * (held w' k.i0 k.a * supplyAt w k.lt * B) := by ring
    _ ≤ held w k.i1 k.a * supplyAt w' k.lt * (held w' k.i0 k.a * supplyAt w k.lt * B) := Nat.mul_le_mul_right _ hle

namespace Demo

example := C94_share_value lawful deployed_reachable trade_hist sound_AB (by rw [trade_calls]; simp [First]) (R := 5)
  (by rw [trade_calls]; simp [Leak, Slip])
example := C94_backed lawful deployed_reachable trade_hist sound_AB (R := 5) (by rw [trade_calls]; simp [Leak, Slip]) (by decide +kernel)
example := C94_product lawful deployed_reachable (hist_runs swapped_run) sound_AB (by rw [swapped_calls]; simp [IsSwap]) (R := 5)
  (by rw [swapped_calls]; simp [Leak, Slip])

/-- A pair with `1998 * 10^15 + 1` of the first token and 1000 of the second. -/
def thickSetup : List CosmosMsg :=
  [bigToken, bigToken, facMsg, .exec bfac (.createPair (.token tA, .token tB) ⟨[user], 1, 1⟩) [],
   .exec tA (.increaseAllowance bpair (10 ^ 19) none) [], .exec tB (.increaseAllowance bpair 1000 none) [],
   .exec bpair (.provideLiquidity (⟨.token tA, 1998 * 10 ^ 15 + 1⟩, ⟨.token tB, 1000⟩) none none) []]

def thick : World := worldOf (runs thickSetup genesis)
theorem thick_run : runs thickSetup genesis = .ok thick := worldOf_eq (by decide +kernel)

/-- `2 * 10^15` for 1: a leak. Then back. -/
def thickSwap : List CosmosMsg :=
  [.exec tA (.send bpair (2 * 10 ^ 15) (.swap none none none)) [], .exec tB (.send bpair 1 (.swap none none none)) []]

def thick' : World := worldOf (runs thickSwap thick)
theorem thickSwap_run : runs thickSwap thick = .ok thick' := worldOf_eq (by decide +kernel)
theorem thick_reachable : Reachable chain thick := genesis_reachable.later (later_runs thick_run)

theorem sound_thick : siteBig.Sound chain thick :=
  sound_of (k := siteBig) (x := tA) (y := tB) (by decide +kernel) ⟨rfl, rfl, rfl⟩ rfl rfl (by decide +kernel)
    (by decide +kernel)

theorem thick_calls : siteBig.calls chain (traces thickSwap thick) =
    [(⟨1998 * 10 ^ 15 + 1, 1000, 44698993277⟩, .swap0 (2 * 10 ^ 15)), (⟨2 * 10 ^ 18 + 1, 999, 44698993277⟩, .swap1 1)] := by
  decide +kernel

example := C94_small (.swap0 ⟨1998 * 10 ^ 15 + 1, 1000, 1⟩ (2 * 10 ^ 15) (by decide) (by decide +kernel)
  ⟨by decide +kernel, by decide +kernel, by decide +kernel, by decide +kernel⟩) (e := (⟨1998 * 10 ^ 15 + 1, 1000, 1⟩, .swap0 (2 * 10 ^ 15)))
  (by decide +kernel)

/-- One of the two swaps is a leak, and the bound says something. -/
example : leaks (siteBig.calls chain (traces thickSwap thick)) = 1 := by rw [thick_calls]; decide +kernel
theorem thick_left : ∀ e ∈ siteBig.calls chain (traces thickSwap thick), Leak e → 990 ≤ left e := by
  rw [thick_calls]
  decide +kernel

example := C94_share_value lawful thick_reachable (hist_runs thickSwap_run) sound_thick (by rw [thick_calls]; simp [First]) thick_left
example := C94_product lawful thick_reachable (hist_runs thickSwap_run) sound_thick (by rw [thick_calls]; simp [IsSwap]) thick_left
example := C94_backed lawful thick_reachable (hist_runs thickSwap_run) sound_thick thick_left (by decide +kernel)

/-- The leak alone: a share stands for less of the second token, and for more of the first. -/
def thickLeak : List CosmosMsg := [.exec tA (.send bpair (2 * 10 ^ 15) (.swap none none none)) []]
def leaked : World := worldOf (runs thickLeak thick)
theorem leaked_run : runs thickLeak thick = .ok leaked := worldOf_eq (by decide +kernel)
example : held leaked (.token tA) bpair * held leaked (.token tB) bpair < held thick (.token tA) bpair * held thick (.token tB) bpair := by
  decide +kernel

theorem leaked_calls : siteBig.calls chain (traces thickLeak thick) = [(⟨1998 * 10 ^ 15 + 1, 1000, 44698993277⟩, .swap0 (2 * 10 ^ 15))] := by
  decide +kernel
example := C94_stay1 lawful thick_reachable (hist_runs leaked_run) sound_thick (by rw [leaked_calls]; simp [First]) (R := 990)
  (by rw [leaked_calls]; decide +kernel) (by decide +kernel) (by decide +kernel) (by decide +kernel)

/-- A swap the other way. -/
def thickBack : List CosmosMsg := [.exec tB (.send bpair 1 (.swap none none none)) []]
def backed : World := worldOf (runs thickBack thick)
theorem backed_run : runs thickBack thick = .ok backed := worldOf_eq (by decide +kernel)
theorem backed_calls : siteBig.calls chain (traces thickBack thick) = [(⟨1998 * 10 ^ 15 + 1, 1000, 44698993277⟩, .swap1 1)] := by
  decide +kernel
example := C94_stay0 lawful thick_reachable (hist_runs backed_run) sound_thick (by rw [backed_calls]; simp [First]) (R := 990)
  (by rw [backed_calls]; decide +kernel) (by decide +kernel) (by decide +kernel) (by decide +kernel)

end Demo
end Halo
