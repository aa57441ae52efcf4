import Verif.Props.Undo
/-! # Splitting a deposit or a withdrawal does not pay (C75) -/

namespace Halo
open _root_.Halo.Spec

/-- One of several deposits: the two amounts, the slippage tolerance and the coins attached. -/
structure Portion where
  d0 : Nat
  d1 : Nat
  tol : Option Nat
  funds : List Coin

/-- The message that makes the deposit. -/
def Portion.msg (k : PairSite) (p : Portion) : CosmosMsg :=
  .exec k.a (.provideLiquidity (⟨k.i0, p.d0⟩, ⟨k.i1, p.d1⟩) p.tol none) p.funds

/-- `S` makes the deposits one after the other, each in a transaction of its own. -/
def depositAll (c : Chain) (adv : Adv) (gas : Nat) (k : PairSite) (S : Addr) (w : World) (ps : List Portion) : R World :=
  ps.foldlM (fun v p => runTx c adv gas v S (p.msg k)) w

/-- `S` gives back LP tokens in portions `xs`, each in a transaction of its own. -/
def withdrawAll (c : Chain) (adv : Adv) (gas : Nat) (k : PairSite) (S : Addr) (w : World) (xs : List Nat) : R World :=
  xs.foldlM (fun v x => runTx c adv gas v S (.exec k.lt (.send k.a x .withdrawLiquidity) [])) w

theorem portion_tx {c : Chain} (hc : c.Lawful) {w w' : World} (hw : Reachable c w) {k : PairSite} (hk : k.Sound c w)
    {adv : Adv} {gas : Nat} {S : Addr} (hS : c.IsUser S) {p : Portion} (h : runTx c adv gas w S (p.msg k) = .ok w') :
    k.Sound c w' ∧ ∃ s, Worth (S ∈ k.s.requirements.whitelist) k.s.requirements.firstAssetMinimum
      k.s.requirements.secondAssetMinimum (supplyAt w k.lt) p.d0 p.d1 (held w k.i0 k.a) (held w k.i1 k.a) s ∧
      s ≠ 0 ∧ Deposited k S S p.funds p.d0 p.d1 s w w' := by
  obtain ⟨d0, d1, s, hn, hs, hk', _, _, hsh, hd⟩ := deposit_tx hc hw hk hS h
  have hne := (hk.ctx hc).ne
  have e : d0 = p.d0 ∧ d1 = p.d1 := by
    rcases hn with h | h <;> simp only [Prod.mk.injEq, Asset.mk.injEq] at h
    · exact ⟨h.1.2.symm, h.2.2.symm⟩
    · exact absurd h.1.1 hne
  obtain ⟨rfl, rfl⟩ := e
  exact ⟨hk', s, share_iff.mp hsh, hs, by simpa using hd⟩

theorem split_shares {P d D T s s' : Nat} (hP : P ≠ 0) (h1 : s * P ≤ d * T) (h2 : s' * (P + d) ≤ D * (T + s)) :
    (s + s') * P ≤ (d + D) * T := by
  have h3 : (s' * P) * (P + d) ≤ (D * T) * (P + d) := by
    calc (s' * P) * (P + d) = s' * (P + d) * P := by ring
      _ ≤ D * (T + s) * P := Nat.mul_le_mul_right _ h2
      _ = D * (T * P + s * P) := by ring
      _ ≤ D * (T * P + d * T) := Nat.mul_le_mul_left _ (by omega)
      _ = D * T * (P + d) := by ring
  have h4 := Nat.le_of_mul_le_mul_right h3 (by omega)
  rw [Nat.add_mul, Nat.add_mul]
  omega

theorem split_root {a b d e T s : Nat} (ha : a ≠ 0) (hb : b ≠ 0) (h : T * T ≤ a * b) (h0 : s * a ≤ d * T)
    (h1 : s * b ≤ e * T) : (T + s) * (T + s) ≤ (a + d) * (b + e) := by
  have c0 : (T + s) * a ≤ (a + d) * T := by rw [Nat.add_mul, Nat.add_mul, Nat.mul_comm T a]; omega
  have c1 : (T + s) * b ≤ (b + e) * T := by rw [Nat.add_mul, Nat.add_mul, Nat.mul_comm T b]; omega
  have h3 : ((T + s) * (T + s)) * (a * b) ≤ ((a + d) * (b + e)) * (a * b) := by
    calc ((T + s) * (T + s)) * (a * b) = ((T + s) * a) * ((T + s) * b) := by ring
      _ ≤ ((a + d) * T) * ((b + e) * T) := Nat.mul_le_mul c0 c1
      _ = ((a + d) * (b + e)) * (T * T) := by ring
      _ ≤ _ := Nat.mul_le_mul_left _ h
  exact Nat.le_of_mul_le_mul_right h3 (Nat.mul_pos (by omega) (by omega))

theorem split_refunds {r r' T T' x q q' X n : Nat} (hT : T' + x = T) (hr : r' + q = r) (h1 : q * T ≤ r * x)
    (h2 : r * x * 10 ^ 18 < (q + 1) * T * 10 ^ 18 + r * T) (hX : X ≤ T') (h3 : q' * T' ≤ r' * X)
    (h4 : r' * X * 10 ^ 18 ≤ q' * T' * 10 ^ 18 + n * (10 ^ 18 + r') * T') (h5 : X = 0 → q' = 0) :
    (q + q') * T ≤ r * (x + X) ∧ r * (x + X) * 10 ^ 18 ≤ (q + q') * T * 10 ^ 18 + (n + 1) * (10 ^ 18 + r) * T := by
  have hb : r * T' ≤ r' * T := by
    have e1 : r' * T + q * T = r * T := by rw [← Nat.add_mul, hr]
    have e2 : r * T' + r * x = r * T := by rw [← Nat.mul_add, hT]
    omega
  have one : r * x * 10 ^ 18 ≤ q * T * 10 ^ 18 + (10 ^ 18 + r) * T := by
    refine le_of_lt (lt_of_lt_of_eq h2 ?_)
    ring
  by_cases hz : T' = 0
  · have hX0 : X = 0 := by omega
    subst hX0
    rw [h5 rfl]
    refine ⟨by simpa using h1, ?_⟩
    calc r * (x + 0) * 10 ^ 18 = r * x * 10 ^ 18 := by ring
      _ ≤ q * T * 10 ^ 18 + (10 ^ 18 + r) * T := one
      _ ≤ q * T * 10 ^ 18 + (10 ^ 18 + r) * T + n * (10 ^ 18 + r) * T := Nat.le_add_right _ _
      _ = _ := by ring
  · have hp : 0 < T' := Nat.pos_of_ne_zero hz
    constructor
    · obtain ⟨Y, rfl⟩ : ∃ Y, T' = X + Y := ⟨T' - X, by omega⟩
      have : ((q + q') * T) * (X + Y) ≤ (r * (x + X)) * (X + Y) := by
        calc ((q + q') * T) * (X + Y) = q * T * (X + Y) + q' * (X + Y) * T := by ring
          _ ≤ q * T * (X + Y) + r' * X * T := Nat.add_le_add_left (Nat.mul_le_mul_right _ h3) _
          _ = q * T * Y + (r' + q) * X * T := by ring
          _ ≤ r * x * Y + (r' + q) * X * T := Nat.add_le_add_right (Nat.mul_le_mul_right _ h1) _
          _ = r * x * Y + r * X * (X + Y + x) := by rw [hr, hT]
          _ = _ := by ring
      exact Nat.le_of_mul_le_mul_right this hp
    · have two : r * X * 10 ^ 18 ≤ q' * T * 10 ^ 18 + n * (10 ^ 18 + r) * T := by
        have : (r * X * 10 ^ 18) * T' ≤ (q' * T * 10 ^ 18 + n * (10 ^ 18 + r) * T) * T' := by
          calc (r * X * 10 ^ 18) * T' = (r * T') * (X * 10 ^ 18) := by ring
            _ ≤ (r' * T) * (X * 10 ^ 18) := Nat.mul_le_mul_right _ hb
            _ = (r' * X * 10 ^ 18) * T := by ring
            _ ≤ (q' * T' * 10 ^ 18 + n * (10 ^ 18 + r') * T') * T := Nat.mul_le_mul_right _ h4
            _ ≤ (q' * T' * 10 ^ 18 + n * (10 ^ 18 + r) * T') * T :=
              Nat.mul_le_mul_right _ (Nat.add_le_add_left (Nat.mul_le_mul_right _ (Nat.mul_le_mul_left _ (by omega))) _)
            _ = _ := by ring
        exact Nat.le_of_mul_le_mul_right this hp
      calc r * (x + X) * 10 ^ 18 = r * x * 10 ^ 18 + r * X * 10 ^ 18 := by ring
        _ ≤ (q * T * 10 ^ 18 + (10 ^ 18 + r) * T) + (q' * T * 10 ^ 18 + n * (10 ^ 18 + r) * T) := Nat.add_le_add one two
        _ = _ := by ring

/-- After several deposits: how much was paid, how much was minted, and that no LP token has become worth less. -/
theorem depositAll_inv {c : Chain} (hc : c.Lawful) {k : PairSite} {adv : Adv} {gas : Nat} {S : Addr} (hS : c.IsUser S)
    {ps : List Portion} {w w' : World} (hw : Reachable c w) (hk : k.Sound c w) (h : depositAll c adv gas k S w ps = .ok w') :
    held w' k.i0 S + (ps.map Portion.d0).sum = held w k.i0 S ∧ held w' k.i1 S + (ps.map Portion.d1).sum = held w k.i1 S ∧
    held w' k.i0 k.a = held w k.i0 k.a + (ps.map Portion.d0).sum ∧
    held w' k.i1 k.a = held w k.i1 k.a + (ps.map Portion.d1).sum ∧
    ∃ s, held w' (.token k.lt) S = held w (.token k.lt) S + s ∧ supplyAt w' k.lt = supplyAt w k.lt + s ∧
      (supplyAt w k.lt ≠ 0 → s * held w k.i0 k.a ≤ (ps.map Portion.d0).sum * supplyAt w k.lt ∧
        s * held w k.i1 k.a ≤ (ps.map Portion.d1).sum * supplyAt w k.lt) ∧
      ∀ a b, supplyAt w k.lt * supplyAt w k.lt ≤ a * b → a ≤ held w k.i0 k.a → b ≤ held w k.i1 k.a →
        (supplyAt w k.lt + s) * (supplyAt w k.lt + s) ≤ (a + (ps.map Portion.d0).sum) * (b + (ps.map Portion.d1).sum) := by
  induction ps generalizing w with
  | nil => cases h; exact ⟨rfl, rfl, rfl, rfl, 0, rfl, rfl, fun _ => by simp, fun a b h1 h2 h3 => by simpa using h1⟩
  | cons p ps ih =>
    simp only [depositAll, List.foldlM_cons, bind_eq_ok] at h
    obtain ⟨v, h1, h2⟩ := h
    obtain ⟨hkv, s, hwo, hs, hd⟩ := portion_tx hc hw hk hS h1
    obtain ⟨f1, f2, f3, f4, s', f5, f6, f7, f8⟩ := ih (.step _ _ hw (.tx _ _ _ _ _ _ hS h1)) hkv h2
    simp only [List.map_cons, List.sum_cons]
    have u0 := hd.user0
    have u1 := hd.user1
    have g0 := hd.pair0
    have g1 := hd.pair1
    have gl := hd.lp
    have gs := hd.supply
    rw [g0, g1, gs] at f7 f8
    refine ⟨by omega, by omega, by omega, by omega, s + s', by omega, by omega, fun hT => ?_, fun a b q1 q2 q3 => ?_⟩
    · obtain ⟨n0, n1, _, _, e⟩ := hwo.later hT
      obtain ⟨k0, k1⟩ := f7 (by omega)
      have b0 : s * held w k.i0 k.a ≤ p.d0 * supplyAt w k.lt := by
        rw [e]; exact (Nat.mul_le_mul_right _ (min_le_left _ _)).trans (Nat.div_mul_le_self _ _)
      have b1 : s * held w k.i1 k.a ≤ p.d1 * supplyAt w k.lt := by
        rw [e]; exact (Nat.mul_le_mul_right _ (min_le_right _ _)).trans (Nat.div_mul_le_self _ _)
      exact ⟨split_shares n0 b0 k0, split_shares n1 b1 k1⟩
    · have step : (supplyAt w k.lt + s) * (supplyAt w k.lt + s) ≤ (a + p.d0) * (b + p.d1) := by
        by_cases hT : supplyAt w k.lt = 0
        · obtain ⟨_, _, _, _, e, _⟩ := hwo.first hT
          rw [hT, Nat.zero_add]
          exact e.trans (Nat.mul_le_mul (by omega) (by omega))
        · obtain ⟨n0, n1, _, _, e⟩ := hwo.later hT
          have b0 : s * a ≤ p.d0 * supplyAt w k.lt := by
            refine (Nat.mul_le_mul_left _ q2).trans ?_
            rw [e]; exact (Nat.mul_le_mul_right _ (min_le_left _ _)).trans (Nat.div_mul_le_self _ _)
          have b1 : s * b ≤ p.d1 * supplyAt w k.lt := by
            refine (Nat.mul_le_mul_left _ q3).trans ?_
            rw [e]; exact (Nat.mul_le_mul_right _ (min_le_right _ _)).trans (Nat.div_mul_le_self _ _)
          have ha : a ≠ 0 := by rintro rfl; simp at q1; exact hT q1
          have hb : b ≠ 0 := by rintro rfl; simp at q1; exact hT q1
          exact split_root ha hb q1 b0 b1
      have := f8 (a + p.d0) (b + p.d1) step (by omega) (by omega)
      rw [Nat.add_assoc a, Nat.add_assoc b, Nat.add_assoc (supplyAt w k.lt)] at this
      exact this

/-- **C75.** A user who splits a deposit into several gets at most as many LP tokens as for making it at once, whatever the
tolerances and also for the first deposit into an empty pair, and pays the same. -/
theorem C75_split_deposit {c : Chain} (hc : c.Lawful) {w w1 w2 : World} (hw : Reachable c w) {k : PairSite}
    (hk : k.Sound c w) {adv adv' : Adv} {gas gas' : Nat} {S : Addr} (hS : c.IsUser S) {p : Portion} {ps : List Portion}
    (e0 : (ps.map Portion.d0).sum = p.d0) (e1 : (ps.map Portion.d1).sum = p.d1)
    (h1 : runTx c adv gas w S (p.msg k) = .ok w1) (h2 : depositAll c adv' gas' k S w ps = .ok w2) :
    held w2 k.i0 S = held w1 k.i0 S ∧ held w2 k.i1 S = held w1 k.i1 S ∧
    held w2 (.token k.lt) S ≤ held w1 (.token k.lt) S := by
  obtain ⟨_, s, hwo, _, hd⟩ := portion_tx hc hw hk hS h1
  obtain ⟨f1, f2, f3, f4, s', f5, f6, f7, f8⟩ := depositAll_inv hc hS hw hk h2
  rw [e0] at f1 f7 f8
  rw [e1] at f2 f7 f8
  have u0 := hd.user0
  have u1 := hd.user1
  have gl := hd.lp
  refine ⟨by omega, by omega, ?_⟩
  rw [f5, gl]
  apply Nat.add_le_add_left
  by_cases hT : supplyAt w k.lt = 0
  · obtain ⟨_, _, _, _, _, e⟩ := hwo.first hT
    have := f8 0 0 (by rw [hT]) (Nat.zero_le _) (Nat.zero_le _)
    rw [hT] at this
    simp only [Nat.zero_add] at this
    by_contra hlt
    have : (s + 1) * (s + 1) ≤ s' * s' := Nat.mul_le_mul (by omega) (by omega)
    omega
  · obtain ⟨n0, n1, _, _, e⟩ := hwo.later hT
    obtain ⟨k0, k1⟩ := f7 hT
    rw [e]
    exact le_min ((Nat.le_div_iff_mul_le (Nat.pos_of_ne_zero n0)).mpr k0) ((Nat.le_div_iff_mul_le (Nat.pos_of_ne_zero n1)).mpr k1)

theorem withdrawAll_inv {c : Chain} (hc : c.Lawful) {k : PairSite} {adv : Adv} {gas : Nat} {S : Addr} (hS : c.IsUser S)
    {xs : List Nat} {w w' : World} (hw : Reachable c w) (hk : k.Sound c w)
    (h : withdrawAll c adv gas k S w xs = .ok w') :
    held w' (.token k.lt) S + xs.sum = held w (.token k.lt) S ∧ xs.sum ≤ supplyAt w k.lt ∧
    ∃ q0 q1, held w' k.i0 S = held w k.i0 S + q0 ∧ held w' k.i1 S = held w k.i1 S + q1 ∧
      (q0 * supplyAt w k.lt ≤ held w k.i0 k.a * xs.sum ∧ held w k.i0 k.a * xs.sum * 10 ^ 18 ≤
        q0 * supplyAt w k.lt * 10 ^ 18 + xs.length * (10 ^ 18 + held w k.i0 k.a) * supplyAt w k.lt) ∧
      (q1 * supplyAt w k.lt ≤ held w k.i1 k.a * xs.sum ∧ held w k.i1 k.a * xs.sum * 10 ^ 18 ≤
        q1 * supplyAt w k.lt * 10 ^ 18 + xs.length * (10 ^ 18 + held w k.i1 k.a) * supplyAt w k.lt) := by
  induction xs generalizing w with
  | nil => cases h; exact ⟨rfl, by simp, 0, 0, rfl, rfl, by simp, by simp⟩
  | cons x xs ih =>
    simp only [withdrawAll, List.foldlM_cons, bind_eq_ok] at h
    obtain ⟨v, h1, h2⟩ := h
    obtain ⟨hT, _, _, _, hkv, _⟩ := withdraw_tx hc hw hk hS h1
    obtain ⟨q0, q1, hwd, _, _, a1, a2, b1, b2⟩ := C16_withdraw_tx hc hw hk hS h1
    obtain ⟨f1, f2, q0', q1', f3, f4, f5, f6⟩ := ih (.step _ _ hw (.tx _ _ _ _ _ _ hS h1)) hkv h2
    have gl := hwd.lp
    have gs := hwd.supply
    have u0 := hwd.user0
    have u1 := hwd.user1
    have g0 := hwd.pair0
    have g1 := hwd.pair1
    simp only [List.sum_cons, List.length_cons]
    have hz : xs.sum = 0 → q0' = 0 ∧ q1' = 0 := by
      cases xs with
      | nil => intro _; cases h2; exact ⟨by omega, by omega⟩
      | cons y ys =>
        intro hz
        simp only [List.foldlM_cons, bind_eq_ok] at h2
        obtain ⟨u, h2, _⟩ := h2
        obtain ⟨_, hy, _⟩ := withdraw_tx hc (.step _ _ hw (.tx _ _ _ _ _ _ hS h1)) hkv hS h2
        rw [List.sum_cons] at hz
        omega
    refine ⟨by omega, by omega, q0 + q0', q1 + q1', by omega, by omega, ?_, ?_⟩
    · exact split_refunds gs g0 a1 a2 f2 f5.1 f5.2 (fun h => (hz h).1)
    · exact split_refunds gs g1 b1 b2 f2 f6.1 f6.2 (fun h => (hz h).2)

/-- **C75.** A user who splits a withdrawal gets, of each asset, at most `1 + r/10^18` units more than for making it at once,
where `r` is the reserve: the rounding of the single withdrawal. They may get less, by as much for each portion. -/
theorem C75_split_withdrawal {c : Chain} (hc : c.Lawful) {w w1 w2 : World} (hw : Reachable c w) {k : PairSite}
    (hk : k.Sound c w) {adv adv' : Adv} {gas gas' : Nat} {S : Addr} (hS : c.IsUser S) {xs : List Nat}
    (h1 : runTx c adv gas w S (.exec k.lt (.send k.a xs.sum .withdrawLiquidity) []) = .ok w1)
    (h2 : withdrawAll c adv' gas' k S w xs = .ok w2) :
    held w2 (.token k.lt) S = held w1 (.token k.lt) S ∧
    (held w2 k.i0 S * 10 ^ 18 < (held w1 k.i0 S + 1) * 10 ^ 18 + held w k.i0 k.a ∧
      held w1 k.i0 S * 10 ^ 18 ≤ held w2 k.i0 S * 10 ^ 18 + xs.length * (10 ^ 18 + held w k.i0 k.a)) ∧
    (held w2 k.i1 S * 10 ^ 18 < (held w1 k.i1 S + 1) * 10 ^ 18 + held w k.i1 k.a ∧
      held w1 k.i1 S * 10 ^ 18 ≤ held w2 k.i1 S * 10 ^ 18 + xs.length * (10 ^ 18 + held w k.i1 k.a)) := by
  obtain ⟨hT, _, _, _, _, _⟩ := withdraw_tx hc hw hk hS h1
  obtain ⟨q0, q1, hwd, _, _, a1, a2, b1, b2⟩ := C16_withdraw_tx hc hw hk hS h1
  obtain ⟨f1, f2, q0', q1', f3, f4, f5, f6⟩ := withdrawAll_inv hc hS hw hk h2
  have gl := hwd.lp
  have key : ∀ {r T X q q' n u : Nat}, T ≠ 0 → q * T ≤ r * X → r * X * 10 ^ 18 < (q + 1) * T * 10 ^ 18 + r * T →
      q' * T ≤ r * X → r * X * 10 ^ 18 ≤ q' * T * 10 ^ 18 + n * (10 ^ 18 + r) * T →
      (u + q') * 10 ^ 18 < (u + q + 1) * 10 ^ 18 + r ∧
      (u + q) * 10 ^ 18 ≤ (u + q') * 10 ^ 18 + n * (10 ^ 18 + r) := by
    intro r T X q q' n u hT h1 h2 h3 h4
    constructor
    · have : (q' * 10 ^ 18) * T < ((q + 1) * 10 ^ 18 + r) * T := by
        calc (q' * 10 ^ 18) * T = q' * T * 10 ^ 18 := by ring
          _ ≤ r * X * 10 ^ 18 := Nat.mul_le_mul_right _ h3
          _ < (q + 1) * T * 10 ^ 18 + r * T := h2
          _ = _ := by ring
      calc (u + q') * 10 ^ 18 = u * 10 ^ 18 + q' * 10 ^ 18 := by ring
        _ < u * 10 ^ 18 + ((q + 1) * 10 ^ 18 + r) := Nat.add_lt_add_left (Nat.lt_of_mul_lt_mul_right this) _
        _ = _ := by ring
    · have : (q * 10 ^ 18) * T ≤ (q' * 10 ^ 18 + n * (10 ^ 18 + r)) * T := by
        calc (q * 10 ^ 18) * T = q * T * 10 ^ 18 := by ring
          _ ≤ r * X * 10 ^ 18 := Nat.mul_le_mul_right _ h1
          _ ≤ _ := h4
          _ = _ := by ring
      calc (u + q) * 10 ^ 18 = u * 10 ^ 18 + q * 10 ^ 18 := by ring
        _ ≤ u * 10 ^ 18 + (q' * 10 ^ 18 + n * (10 ^ 18 + r)) :=
          Nat.add_le_add_left (Nat.le_of_mul_le_mul_right this (Nat.pos_of_ne_zero hT)) _
        _ = _ := by ring
  refine ⟨by omega, ?_, ?_⟩
  · rw [f3, hwd.user0]; exact key hT a1 a2 f5.1 f5.2
  · rw [f4, hwd.user1]; exact key hT b1 b2 f6.1 f6.2

/-! ## Examples -/

/-- Splitting a withdrawal can really gain a unit: of `2^20` LP tokens and as large a reserve, `2^20 - 3` pay one unit less at
once than as `2^20 - 4` and 1. -/
example : refund (2 ^ 20) (2 ^ 20 - 3) (2 ^ 20) = 2 ^ 20 - 4 ∧ refund (2 ^ 20) (2 ^ 20 - 4) (2 ^ 20) = 2 ^ 20 - 4 ∧
    refund 4 1 4 = 1 := by decide +kernel

namespace Demo

/-- The user has allowed the pair to collect. -/
def saver : World := worldOf (runs [.exec tA (.increaseAllowance pAB 1000 none) [], .exec tB (.increaseAllowance pAB 1000 none) []]
  deployed)
theorem saver_run : runs [.exec tA (.increaseAllowance pAB 1000 none) [], .exec tB (.increaseAllowance pAB 1000 none) []]
  deployed = .ok saver := worldOf_eq (by decide +kernel)
theorem saver_reachable : Reachable chain saver := deployed_reachable.later (later_runs saver_run)
theorem saver_sound : siteAB.Sound chain saver :=
  sound_of (k := siteAB) (x := tA) (y := tB) (by decide +kernel) ⟨rfl, rfl, rfl⟩ rfl rfl (by decide +kernel)
    (by decide +kernel)

/-- 300 A and 500 B at once, and in two portions in different ratios. -/
def whole : Portion := ⟨300, 500, none, []⟩
def halves : List Portion := [⟨100, 250, none, []⟩, ⟨200, 250, some 500000000000000000, []⟩]
def wholeDone : World := worldOf (runTx chain idle 20 saver user (whole.msg siteAB))
theorem wholeDone_run : runTx chain idle 20 saver user (whole.msg siteAB) = .ok wholeDone := worldOf_eq (by decide +kernel)
def halvesDone : World := worldOf (depositAll chain idle 20 siteAB user saver halves)
theorem halvesDone_run : depositAll chain idle 20 siteAB user saver halves = .ok halvesDone :=
  worldOf_eq (by decide +kernel)
example := C75_split_deposit lawful saver_reachable saver_sound isUser_user (p := whole) (ps := halves) rfl rfl wholeDone_run
  halvesDone_run
/-- 353 LP tokens at once, 317 in portions. -/
example : supplyAt wholeDone lpAB = 14142 + 353 ∧ supplyAt halvesDone lpAB = 14142 + 317 := by decide +kernel

/-- 100 LP tokens at once, and in portions. -/
def backAtOnce : World := worldOf (runTx chain idle 20 deployed user (.exec lpAB (.send pAB 100 .withdrawLiquidity) []))
theorem backAtOnce_run : runTx chain idle 20 deployed user (.exec lpAB (.send pAB 100 .withdrawLiquidity) []) = .ok backAtOnce :=
  worldOf_eq (by decide +kernel)
def backInParts : World := worldOf (withdrawAll chain idle 20 siteAB user deployed [12, 12, 12, 64])
theorem backInParts_run : withdrawAll chain idle 20 siteAB user deployed [12, 12, 12, 64] = .ok backInParts :=
  worldOf_eq (by decide +kernel)
example := C75_split_withdrawal lawful deployed_reachable sound_AB isUser_user (xs := [12, 12, 12, 64]) backAtOnce_run
  backInParts_run
example : held backAtOnce (.token tA) pAB = 10000 - 70 ∧ held backInParts (.token tA) pAB = 10000 - 70 + 1 := by decide +kernel

end Demo
end Halo
