import Verif.Props.Live
import Verif.Props.Lost
/-! # Leaving early or late (C120)

If those who withdraw first got more than their share, everybody would hurry to be first. -/

namespace Halo
open _root_.Halo.Spec

namespace ExitL

/-- Each reserve per LP token is at least what it was. -/
def Kept (p q : Pool) : Prop := p.r0 * q.supply ≤ q.r0 * p.supply ∧ p.r1 * q.supply ≤ q.r1 * p.supply

private theorem frac_trans {a b c S T U : Nat} (hT : T ≠ 0) (h1 : a * T ≤ b * S) (h2 : b * U ≤ c * T) : a * U ≤ c * S := by
  refine Nat.le_of_mul_le_mul_right (c := T) ?_ (Nat.pos_of_ne_zero hT)
  calc a * U * T = a * T * U := by ring
    _ ≤ b * S * U := Nat.mul_le_mul_right _ h1
    _ = b * U * S := by ring
    _ ≤ c * T * S := Nat.mul_le_mul_right _ h2
    _ = c * S * T := by ring

theorem Kept.trans {p q r : Pool} (hq : q.supply ≠ 0) (h1 : Kept p q) (h2 : Kept q r) : Kept p r :=
  ⟨frac_trans hq h1.1 h2.1, frac_trans hq h1.2 h2.2⟩

theorem kept_drift {p q : Pool} (h : Drift p q) : Kept p q := ⟨Nat.mul_le_mul h.r0 h.supply, Nat.mul_le_mul h.r1 h.supply⟩

theorem kept_act {l : Call} {p q : Pool} (h : Act l p q) (hs : ¬ IsSwap (p, l)) (hS : p.supply ≠ 0) : Kept p q := by
  cases h with
  | swap0 => exact absurd trivial hs
  | swap1 => exact absurd trivial hs
  | init _ _ _ h0 => exact absurd h0 hS
  | deposit _ d0 d1 s _ h0 h1 hs hpos =>
    have e0 : s * p.r0 ≤ d0 * p.supply := by
      rw [hs]; exact (Nat.mul_le_mul_right _ (min_le_left _ _)).trans (Nat.div_mul_le_self _ _)
    have e1 : s * p.r1 ≤ d1 * p.supply := by
      rw [hs]; exact (Nat.mul_le_mul_right _ (min_le_right _ _)).trans (Nat.div_mul_le_self _ _)
    exact ⟨by simp only; nlinarith, by simp only; nlinarith⟩
  | withdraw _ s hs hpos h0 h1 =>
    have e0 := refund_le (r := p.r0) (s := s) hS
    have e1 := refund_le (r := p.r1) (s := s) hS
    constructor
    · simp only
      rw [Nat.mul_sub, Nat.sub_mul]
      exact Nat.sub_le_sub_left e0 _
    · simp only
      rw [Nat.mul_sub, Nat.sub_mul]
      exact Nat.sub_le_sub_left e1 _

theorem kept_path {p q : Pool} {cs : List (Pool × Call)} (h : Path p cs q) (hs : ∀ e ∈ cs, ¬ IsSwap e) (hf : ∀ e ∈ cs, ¬ First e) :
    Kept p q := by
  induction h with
  | done _ _ h => exact kept_drift h
  | call p b q r l rest h1 h2 h3 ih =>
    have hf' : ∀ e ∈ rest, ¬ First e := fun e he => hf e (List.mem_cons_of_mem _ he)
    have ih := ih (fun e he => hs e (List.mem_cons_of_mem _ he)) hf'
    have zero : q.supply = 0 → Kept p r := by
      intro hq
      have := h3.none hf' hq
      simp [Kept, this]
    by_cases hq : q.supply = 0
    · exact zero hq
    by_cases hb : b.supply = 0
    · refine zero ?_
      have hf := hf (b, l) List.mem_cons_self
      cases h2 with
      | swap0 | swap1 => exact hb
      | init => exact absurd hb hf
      | deposit _ _ _ _ h0 => exact absurd hb h0
      | withdraw _ s hs => simp only; omega
    · exact (((kept_drift h1).trans hb (kept_act h2 (hs _ List.mem_cons_self) hb))).trans hq ih

/-- What is paid later against what would have been paid before. -/
private theorem later_le {r r' T T' x q q' D : Nat} (hT : T ≠ 0) (hT' : T' ≠ 0) (h : r * T' ≤ r' * T) (h1 : q * T ≤ r * x)
    (h2 : r' * x * D < (q' + 1) * T' * D + r' * T') : q * D < (q' + 1) * D + r' := by
  refine Nat.lt_of_mul_lt_mul_right (a := T * T') ?_
  calc q * D * (T * T') = q * T * (D * T') := by ring
    _ ≤ r * x * (D * T') := Nat.mul_le_mul_right _ h1
    _ = r * T' * (x * D) := by ring
    _ ≤ r' * T * (x * D) := Nat.mul_le_mul_right _ h
    _ = T * (r' * x * D) := by ring
    _ < T * ((q' + 1) * T' * D + r' * T') := Nat.mul_lt_mul_of_pos_left h2 (Nat.pos_of_ne_zero hT)
    _ = ((q' + 1) * D + r') * (T * T') := by ring

/-- The other way round, after one other withdrawal. -/
private theorem before_le {r r' p T T' x y q q' D : Nat} (hT : T ≠ 0) (hT' : T' ≠ 0) (hr : r' + p = r) (hy : T' + y = T) (hx : x ≤ T')
    (hx0 : x ≠ 0) (hp : r * y * D < (p + 1) * T * D + r * T) (hq : r * x * D < (q + 1) * T * D + r * T) (hq' : q' * T' ≤ r' * x) :
    q' * D < (q + 2) * D + 2 * r := by
  have e1 : r' * T * D < r * T' * D + T * D + r * T := by
    have e : r' * T * D + p * T * D = r * T' * D + r * y * D := by
      calc r' * T * D + p * T * D = (r' + p) * T * D := by ring
        _ = r * (T' + y) * D := by rw [hr, hy]
        _ = _ := by ring
    have : (p + 1) * T * D = p * T * D + T * D := by ring
    omega
  refine Nat.lt_of_mul_lt_mul_right (a := T * T') ?_
  calc q' * D * (T * T') = q' * T' * (D * T) := by ring
    _ ≤ r' * x * (D * T) := Nat.mul_le_mul_right _ hq'
    _ = x * (r' * T * D) := by ring
    _ < x * (r * T' * D + T * D + r * T) := Nat.mul_lt_mul_of_pos_left e1 (Nat.pos_of_ne_zero hx0)
    _ = T' * (r * x * D) + x * (T * D + r * T) := by ring
    _ ≤ T' * ((q + 1) * T * D + r * T) + T' * (T * D + r * T) :=
      Nat.add_le_add (Nat.mul_le_mul_left _ hq.le) (Nat.mul_le_mul_right _ hx)
    _ = ((q + 2) * D + 2 * r) * (T * T') := by ring

end ExitL

open ExitL

/-- **C120.** As long as nobody swaps and nobody begins the pair anew, each reserve per LP token only grows, whoever else deposits,
withdraws, donates or destroys LP tokens. -/
theorem C120_claims {c : Chain} (hc : c.Lawful) {w w' : World} (hw : Reachable c w) {tr : List (World × Frame)}
    (hl : Hist c w tr w') {k : PairSite} (hk : k.Sound c w) (hs : ∀ e ∈ k.calls c tr, ¬ IsSwap e) (hf : ∀ e ∈ k.calls c tr, ¬ First e) :
    k.Broken w' ∨ (held w k.i0 k.a * supplyAt w' k.lt ≤ held w' k.i0 k.a * supplyAt w k.lt ∧
      held w k.i1 k.a * supplyAt w' k.lt ≤ held w' k.i1 k.a * supplyAt w k.lt) := by
  rcases C21_constant_product hc hw hl hk with hb | ⟨_, h⟩
  · exact .inl hb
  · exact .inr (kept_path h hs hf)

/-- **C120.** There is no point in being first: a withdrawal of `x` LP tokens that is made after any number of other withdrawals, deposits
and donations pays, of each asset, what it would have paid before them, up to `1 + r/10^18` units, `r` being the reserve. -/
theorem C120_no_rush {c : Chain} (hc : c.Lawful) {w w1 : World} (hw : Reachable c w) {tr : List (World × Frame)}
    (hl : Hist c w tr w1) {k : PairSite} (hk : k.Sound c w) (hs : ∀ e ∈ k.calls c tr, ¬ IsSwap e) (hf : ∀ e ∈ k.calls c tr, ¬ First e)
    {S : Addr} (hS : c.IsUser S) {x : Nat} {adv adv1 : Adv} {gas gas1 : Nat} {v v1 : World}
    (h : runTx c adv gas w S (.exec k.lt (.send k.a x .withdrawLiquidity) []) = .ok v)
    (h1 : runTx c adv1 gas1 w1 S (.exec k.lt (.send k.a x .withdrawLiquidity) []) = .ok v1) :
    k.Broken w1 ∨ ∃ q0 q1 q0' q1',
      (held v k.i0 S = held w k.i0 S + q0 ∧ held v k.i1 S = held w k.i1 S + q1) ∧
      (held v1 k.i0 S = held w1 k.i0 S + q0' ∧ held v1 k.i1 S = held w1 k.i1 S + q1') ∧
      q0 * 10 ^ 18 < (q0' + 1) * 10 ^ 18 + held w1 k.i0 k.a ∧ q1 * 10 ^ 18 < (q1' + 1) * 10 ^ 18 + held w1 k.i1 k.a := by
  rcases C120_claims hc hw hl hk hs hf with hb | ⟨k0, k1⟩
  · exact .inl hb
  rcases C21_constant_product hc hw hl hk with hb | ⟨hk1, _⟩
  · exact .inl hb
  have hw1 := hw.later hl.later
  have hT := (withdraw_tx hc hw hk hS h).1
  have hT1 := (withdraw_tx hc hw1 hk1 hS h1).1
  obtain ⟨q0, q1, hwd, _, _, a1, _, b1, _⟩ := C16_withdraw_tx hc hw hk hS h
  obtain ⟨q0', q1', hwd', _, _, _, a2, _, b2⟩ := C16_withdraw_tx hc hw1 hk1 hS h1
  exact .inr ⟨q0, q1, q0', q1', ⟨hwd.user0, hwd.user1⟩, ⟨hwd'.user0, hwd'.user1⟩, later_le hT hT1 k0 a1 a2, later_le hT hT1 k1 b1 b2⟩

/-- **C120.** Nor in being last: if another user withdraws just before, `S` gets less than `2 + 2r/10^18` units of each asset more, `r` being
the reserve before both. -/
theorem C120_no_waiting {c : Chain} (hc : c.Lawful) {w w1 : World} (hw : Reachable c w) {k : PairSite} (hk : k.Sound c w)
    {S U : Addr} (hS : c.IsUser S) (hU : c.IsUser U) {x y : Nat} {adv adv0 adv1 : Adv} {gas gas0 gas1 : Nat} {v v1 : World}
    (h : runTx c adv gas w S (.exec k.lt (.send k.a x .withdrawLiquidity) []) = .ok v)
    (h0 : runTx c adv0 gas0 w U (.exec k.lt (.send k.a y .withdrawLiquidity) []) = .ok w1)
    (h1 : runTx c adv1 gas1 w1 S (.exec k.lt (.send k.a x .withdrawLiquidity) []) = .ok v1) :
    ∃ q0 q1 q0' q1',
      (held v k.i0 S = held w k.i0 S + q0 ∧ held v k.i1 S = held w k.i1 S + q1) ∧
      (held v1 k.i0 S = held w1 k.i0 S + q0' ∧ held v1 k.i1 S = held w1 k.i1 S + q1') ∧
      q0' * 10 ^ 18 < (q0 + 2) * 10 ^ 18 + 2 * held w k.i0 k.a ∧ q1' * 10 ^ 18 < (q1 + 2) * 10 ^ 18 + 2 * held w k.i1 k.a := by
  have hk1 := (withdraw_tx hc hw hk hU h0).2.2.2.2.1
  have hw1 := hw.later (Hist.later (.tx _ _ _ _ _ _ _ .refl hU h0))
  have hT := (withdraw_tx hc hw hk hS h).1
  obtain ⟨hT1, hx, _⟩ := withdraw_tx hc hw1 hk1 hS h1
  obtain ⟨q0, q1, hwd, _, _, _, a1, _, b1⟩ := C16_withdraw_tx hc hw hk hS h
  obtain ⟨p0, p1, hwu, _, _, _, a2, _, b2⟩ := C16_withdraw_tx hc hw hk hU h0
  obtain ⟨q0', q1', hwd', _, _, a3, _, b3, _⟩ := C16_withdraw_tx hc hw1 hk1 hS h1
  have hxT : x ≤ supplyAt w1 k.lt := by have := hwd'.supply; omega
  exact ⟨q0, q1, q0', q1', ⟨hwd.user0, hwd.user1⟩, ⟨hwd'.user0, hwd'.user1⟩,
    before_le hT hT1 hwu.pair0 hwu.supply hxT hx a2 a1 a3, before_le hT hT1 hwu.pair1 hwu.supply hxT hx b2 b1 b3⟩

/-- **C120.** The door stays open: whoever holds LP tokens worth one unit of each asset up to the 18-digit rounding can still withdraw them
after any number of other withdrawals, deposits and donations. -/
theorem C120_still_open {c : Chain} (hc : c.Lawful) {w w1 : World} (hw : Reachable c w) {tr : List (World × Frame)}
    (hl : Hist c w tr w1) {k : PairSite} (hk : k.Sound c w) (hs : ∀ e ∈ k.calls c tr, ¬ IsSwap e) (hf : ∀ e ∈ k.calls c tr, ¬ First e)
    (hfit : Fits k w1) {S : Addr} (hS : c.IsUser S) {x : Nat} (adv : Adv) {gas : Nat} (hg : 5 ≤ gas)
    (hb : x ≤ held w1 (.token k.lt) S) (hx : x ≠ 0) (hT : supplyAt w k.lt ≠ 0)
    (h0 : (10 ^ 18 + held w1 k.i0 k.a) * supplyAt w k.lt ≤ held w k.i0 k.a * x * 10 ^ 18)
    (h1 : (10 ^ 18 + held w1 k.i1 k.a) * supplyAt w k.lt ≤ held w k.i1 k.a * x * 10 ^ 18) :
    k.Broken w1 ∨ ∃ v, runTx c adv gas w1 S (.exec k.lt (.send k.a x .withdrawLiquidity) []) = .ok v := by
  rcases C120_claims hc hw hl hk hs hf with hb' | ⟨k0, k1⟩
  · exact .inl hb'
  rcases C21_constant_product hc hw hl hk with hb' | ⟨hk1, _⟩
  · exact .inl hb'
  have hw1 := hw.later hl.later
  have hT1 : supplyAt w1 k.lt ≠ 0 := by
    have := LostL.held_le_supply' hw1.tokensOk k.lt S
    omega
  have key : ∀ {r r' T T' D : Nat}, T ≠ 0 → r * T' ≤ r' * T → (D + r') * T ≤ r * x * D → T' * D + r' * T' ≤ r' * x * D := by
    intro r r' T T' D hT e1 e2
    refine Nat.le_of_mul_le_mul_right (c := T) ?_ (Nat.pos_of_ne_zero hT)
    calc (T' * D + r' * T') * T = (D + r') * T * T' := by ring
      _ ≤ r * x * D * T' := Nat.mul_le_mul_right _ e2
      _ = r * T' * (x * D) := by ring
      _ ≤ r' * T * (x * D) := Nat.mul_le_mul_right _ e1
      _ = r' * x * D * T := by ring
  exact .inr (C55_withdraw_live hc hw1 hk1 hfit hS adv hg hb hT1 (key hT k0 h0) (key hT k1 h1))

/-- The users in the list withdraw all the LP tokens they have, one after the other. -/
def leaveAll (c : Chain) (adv : Adv) (gas : Nat) (k : PairSite) : List Addr → World → R World
  | [], w => .ok w
  | u :: us, w => do
    let v ← runTx c adv gas w u (.exec k.lt (.send k.a (held w (.token k.lt) u) .withdrawLiquidity) [])
    leaveAll c adv gas k us v

/-- Those who leave do not touch the money of the others. -/
theorem ExitL.leaveAll_people {c : Chain} (hc : c.Lawful) {k : PairSite} {adv : Adv} {gas : Nat} {b : Addr} (hb : b ≠ k.a) (i : AssetInfo) :
    ∀ {us : List Addr} {w w' : World}, Reachable c w → k.Sound c w → (∀ u ∈ us, c.IsUser u) → leaveAll c adv gas k us w = .ok w' →
      b ∉ us → held w' i b = held w i b := by
  intro us
  induction us with
  | nil => intro w w' _ _ _ h _; cases h; rfl
  | cons u us ih =>
    intro w w' hw hk hus h hn
    simp only [leaveAll, bind_eq_ok] at h
    obtain ⟨v, hv, h⟩ := h
    have hu := hus u List.mem_cons_self
    obtain ⟨_, _, _, _, hkv, hwd⟩ := withdraw_tx hc hw hk hu hv
    rw [ih (hw.later (Hist.later (.tx _ _ _ _ _ _ _ .refl hu hv))) hkv (fun a ha => hus a (List.mem_cons_of_mem _ ha)) h
      (fun hm => hn (List.mem_cons_of_mem _ hm))]
    exact hwd.people b (by rintro rfl; exact hn List.mem_cons_self) hb i

/-- **C120.** A pair is solvent: if some users have all its LP tokens, each of them enough for one unit of each asset up to the 18-digit
rounding, they can all withdraw everything, in any order; each gets their share of both reserves up to `1 + r/10^18` units, and nothing is
left in the pair. -/
theorem C120_all_leave {c : Chain} (hc : c.Lawful) {k : PairSite} (adv : Adv) {gas : Nat} (hg : 5 ≤ gas) :
    ∀ {us : List Addr} {w : World}, Reachable c w → k.Sound c w → Fits k w → us.Nodup → (∀ u ∈ us, c.IsUser u) → us ≠ [] →
      (us.map (held w (.token k.lt))).sum = supplyAt w k.lt →
      (∀ u ∈ us, (10 ^ 18 + held w k.i0 k.a) * supplyAt w k.lt ≤ held w k.i0 k.a * held w (.token k.lt) u * 10 ^ 18) →
      (∀ u ∈ us, (10 ^ 18 + held w k.i1 k.a) * supplyAt w k.lt ≤ held w k.i1 k.a * held w (.token k.lt) u * 10 ^ 18) →
      supplyAt w k.lt ≠ 0 →
      ∃ w', leaveAll c adv gas k us w = .ok w' ∧ held w' k.i0 k.a = 0 ∧ held w' k.i1 k.a = 0 ∧ supplyAt w' k.lt = 0 ∧
        ∀ u ∈ us, ∃ q0 q1, held w' k.i0 u = held w k.i0 u + q0 ∧ held w' k.i1 u = held w k.i1 u + q1 ∧
          held w k.i0 k.a * held w (.token k.lt) u * 10 ^ 18 < (q0 + 1) * supplyAt w k.lt * 10 ^ 18 + held w k.i0 k.a * supplyAt w k.lt ∧
          held w k.i1 k.a * held w (.token k.lt) u * 10 ^ 18 < (q1 + 1) * supplyAt w k.lt * 10 ^ 18 + held w k.i1 k.a * supplyAt w k.lt := by
  intro us
  induction us with
  | nil => intro w _ _ _ _ _ h; exact absurd rfl h
  | cons u us ih =>
    intro w hw hk hf hnd hus _ hsum h0 h1 hT
    have hu := hus u List.mem_cons_self
    have hle := LostL.held_le_supply' hw.tokensOk k.lt u
    generalize hx : held w (.token k.lt) u = x at hle
    have c0 := h0 u List.mem_cons_self
    have c1 := h1 u List.mem_cons_self
    rw [hx] at c0 c1
    obtain ⟨v, hv⟩ := C55_withdraw_live hc hw hk hf hu adv hg hx.ge hT (by linarith) (by linarith)
    have hkv := (withdraw_tx hc hw hk hu hv).2.2.2.2.1
    have hwv := hw.later (Hist.later (.tx _ _ _ _ _ _ _ .refl hu hv))
    obtain ⟨q0, q1, hwd, p0, p1, a1, a2, b1, b2⟩ := C16_withdraw_tx hc hw hk hu hv
    obtain ⟨k0, k1⟩ := C16_withdraw_tx_backing hc hw hk hu hv
    have hnotin : u ∉ us := (List.nodup_cons.mp hnd).1
    have hsame : ∀ a ∈ us, held v (.token k.lt) a = held w (.token k.lt) a := fun a ha =>
      hwd.lp_rest a (by rintro rfl; exact hnotin ha)
    have hnep : ∀ a ∈ us, a ≠ k.a := fun a ha => (addr_facts hc hw hk.pair).2 a (hus a (List.mem_cons_of_mem _ ha))
    have hup : u ≠ k.a := (addr_facts hc hw hk.pair).2 u hu
    have r0 : held v k.i0 k.a ≤ held w k.i0 k.a := by have := hwd.pair0; omega
    have r1 : held v k.i1 k.a ≤ held w k.i1 k.a := by have := hwd.pair1; omega
    have hsup := hwd.supply
    have hsum' : (us.map (held v (.token k.lt))).sum = supplyAt v k.lt := by
      rw [List.map_congr_left hsame]
      simp only [List.map_cons, List.sum_cons, hx] at hsum
      omega
    simp only [leaveAll, hx, hv]
    by_cases hne : us = []
    · subst hne
      have hv0 : supplyAt v k.lt = 0 := by rw [← hsum']; rfl
      have hxT : x = supplyAt w k.lt := by omega
      have all : ∀ r, refund r x (supplyAt w k.lt) = r := by
        intro r
        unfold refund
        rw [hxT, Nat.mul_div_cancel_left _ (Nat.pos_of_ne_zero hT), Nat.mul_div_cancel _ (by norm_num)]
      have hw' := (withdraw_tx hc hw hk hu hv).2.2.2.2.2
      have g0 := hw'.pair0
      have g1 := hw'.pair1
      rw [all] at g0 g1
      refine ⟨v, rfl, by omega, by omega, hv0, ?_⟩
      intro a ha
      rw [List.mem_singleton.mp ha, hx]
      exact ⟨q0, q1, hwd.user0, hwd.user1, a2, b2⟩
    have hTv : supplyAt v k.lt ≠ 0 := by
      obtain ⟨a, ha⟩ := List.exists_mem_of_ne_nil us hne
      have e1 := h0 a (List.mem_cons_of_mem _ ha)
      have e2 := LostL.held_le_supply' hwv.tokensOk k.lt a
      rw [hsame a ha] at e2
      intro hz
      rw [hz] at e2
      have : held w (.token k.lt) a = 0 := by omega
      rw [this, Nat.mul_zero, Nat.zero_mul] at e1
      have := Nat.eq_zero_of_le_zero e1
      rcases Nat.mul_eq_zero.mp this with h | h
      · norm_num at h
      · exact hT h
    have key : ∀ {r r' T T' D y : Nat}, T ≠ 0 → r' ≤ r → r * T' ≤ r' * T → (D + r) * T ≤ r * y * D → (D + r') * T' ≤ r' * y * D := by
      intro r r' T T' D y hT hr e1 e2
      refine Nat.le_of_mul_le_mul_right (c := T) ?_ (Nat.pos_of_ne_zero hT)
      calc (D + r') * T' * T = (D + r') * T * T' := by ring
        _ ≤ (D + r) * T * T' := Nat.mul_le_mul_right _ (Nat.mul_le_mul_right _ (Nat.add_le_add_left hr _))
        _ ≤ r * y * D * T' := Nat.mul_le_mul_right _ e2
        _ = r * T' * (y * D) := by ring
        _ ≤ r' * T * (y * D) := Nat.mul_le_mul_right _ e1
        _ = r' * y * D * T := by ring
    have back : ∀ {r r' T T' D y q : Nat}, T ≠ 0 → T' ≠ 0 → r' ≤ r → r * T' ≤ r' * T → r' * y * D < (q + 1) * T' * D + r' * T' →
        r * y * D < (q + 1) * T * D + r * T := by
      intro r r' T T' D y q hT hT' hr e1 e2
      refine Nat.lt_of_mul_lt_mul_right (a := T') ?_
      calc r * y * D * T' = r * T' * (y * D) := by ring
        _ ≤ r' * T * (y * D) := Nat.mul_le_mul_right _ e1
        _ = T * (r' * y * D) := by ring
        _ < T * ((q + 1) * T' * D + r' * T') := Nat.mul_lt_mul_of_pos_left e2 (Nat.pos_of_ne_zero hT)
        _ = ((q + 1) * T * D + r' * T) * T' := by ring
        _ ≤ ((q + 1) * T * D + r * T) * T' := Nat.mul_le_mul_right _ (Nat.add_le_add_left (Nat.mul_le_mul_right _ hr) _)
    have hfv : Fits k v := by
      refine ⟨fun d hd => ?_, fun d hd => ?_⟩
      · have := hf.1 d hd
        rw [hd] at r0
        exact lt_of_le_of_lt r0 this
      · have := hf.2 d hd
        rw [hd] at r1
        exact lt_of_le_of_lt r1 this
    obtain ⟨w', hrun, z0, z1, z2, each⟩ := ih hwv hkv hfv (List.nodup_cons.mp hnd).2 (fun a ha => hus a (List.mem_cons_of_mem _ ha)) hne hsum'
      (fun a ha => by rw [hsame a ha]; exact key hT r0 k0 (h0 a (List.mem_cons_of_mem _ ha)))
      (fun a ha => by rw [hsame a ha]; exact key hT r1 k1 (h1 a (List.mem_cons_of_mem _ ha))) hTv
    refine ⟨w', hrun, z0, z1, z2, ?_⟩
    intro a ha
    rcases List.mem_cons.mp ha with rfl | ha'
    · rw [hx]
      have stay : ∀ i, held w' i a = held v i a := fun i => leaveAll_people hc hup i hwv hkv (fun b hb => hus b (List.mem_cons_of_mem _ hb)) hrun hnotin
      exact ⟨q0, q1, by rw [stay]; exact hwd.user0, by rw [stay]; exact hwd.user1, a2, b2⟩
    · obtain ⟨s0, s1, t0, t1, t2, t3⟩ := each a ha'
      have ne : a ≠ u := by rintro rfl; exact hnotin ha'
      rw [hwd.people a ne (hnep a ha')] at t0 t1
      rw [hsame a ha'] at t2 t3
      exact ⟨s0, s1, t0, t1, back hT hTv r0 k0 t2, back hT hTv r1 k1 t3⟩

/-! ## Examples -/

namespace Demo

/-- `user2` has 3000 LP tokens. -/
def queueWorld : World := worldOf (runs [.exec lpAB (.transfer user2 3000) []] deployed)
private theorem queueWorld_run : runs [.exec lpAB (.transfer user2 3000) []] deployed = .ok queueWorld := worldOf_eq (by decide +kernel)
private theorem queue_reachable : Reachable chain queueWorld := deployed_reachable.later (later_runs queueWorld_run)
private theorem sound_queue : siteAB.Sound chain queueWorld :=
  sound_of (k := siteAB) (x := tA) (y := tB) (by decide +kernel) ⟨rfl, rfl, rfl⟩ rfl rfl (by decide +kernel) (by decide +kernel)
/-- `user` withdraws, deposits, and withdraws again. -/
def shuffle : List CosmosMsg := [approve tA pAB, approve tB pAB, .exec lpAB (.send pAB 1001 .withdrawLiquidity) [],
  .exec pAB (.provideLiquidity (⟨.token tA, 500⟩, ⟨.token tB, 1003⟩) none none) [], .exec lpAB (.send pAB 2002 .withdrawLiquidity) []]
def shuffled : World := worldOf (runs shuffle queueWorld)
private theorem shuffled_run : runs shuffle queueWorld = .ok shuffled := worldOf_eq (by decide +kernel)
private theorem shuffled_calls : siteAB.calls chain (traces shuffle queueWorld) =
    [(⟨10000, 20000, 14142⟩, .withdraw 1001), (⟨9293, 18585, 13141⟩, .deposit 500 1003), (⟨9793, 19588, 13848⟩, .withdraw 2002)] := by
  decide +kernel
private theorem quiet_shuffle : ∀ e ∈ siteAB.calls chain (traces shuffle queueWorld), ¬ IsSwap e := by rw [shuffled_calls]; simp [IsSwap]
private theorem old_shuffle : ∀ e ∈ siteAB.calls chain (traces shuffle queueWorld), ¬ First e := by rw [shuffled_calls]; simp [First]
def quit3000 : CosmosMsg := .exec lpAB (.send pAB 3000 .withdrawLiquidity) []
def leftEarly : World := worldOf (runTx chain idle 20 queueWorld user2 quit3000)
private theorem leftEarly_run : runTx chain idle 20 queueWorld user2 quit3000 = .ok leftEarly := worldOf_eq (by decide +kernel)
def leftLate : World := worldOf (runTx chain idle 20 shuffled user2 quit3000)
private theorem leftLate_run : runTx chain idle 20 shuffled user2 quit3000 = .ok leftLate := worldOf_eq (by decide +kernel)
/-- The moment of leaving makes no difference of more than a unit here. -/
example : (held leftEarly (.token tA) user2 = held queueWorld (.token tA) user2 + 2121 ∧
    held leftEarly (.token tB) user2 = held queueWorld (.token tB) user2 + 4242) ∧
    held leftLate (.token tA) user2 = held shuffled (.token tA) user2 + 2121 ∧
    held leftLate (.token tB) user2 = held shuffled (.token tB) user2 + 4243 := by decide +kernel
example := C120_claims lawful queue_reachable (hist_runs shuffled_run) sound_queue quiet_shuffle old_shuffle
example := C120_no_rush lawful queue_reachable (hist_runs shuffled_run) sound_queue quiet_shuffle old_shuffle isUser_user2 leftEarly_run
  leftLate_run
example := C120_still_open lawful queue_reachable (hist_runs shuffled_run) sound_queue quiet_shuffle old_shuffle (fits_of rfl rfl _) isUser_user2
  (x := 3000) idle (le_refl 5) (by decide +kernel) (by decide) (by decide +kernel) (by decide +kernel) (by decide +kernel)

/-- After one withdrawal of `user`. -/
def queue1 : World := worldOf (runTx chain idle 20 queueWorld user (.exec lpAB (.send pAB 1001 .withdrawLiquidity) []))
private theorem queue1_run : runTx chain idle 20 queueWorld user (.exec lpAB (.send pAB 1001 .withdrawLiquidity) []) = .ok queue1 :=
  worldOf_eq (by decide +kernel)
def leftSecond : World := worldOf (runTx chain idle 20 queue1 user2 quit3000)
private theorem leftSecond_run : runTx chain idle 20 queue1 user2 quit3000 = .ok leftSecond := worldOf_eq (by decide +kernel)
example := C120_no_waiting lawful queue_reachable sound_queue isUser_user2 isUser_user leftEarly_run queue1_run leftSecond_run

/-- `user2` and `user` have all LP tokens and leave, in this order; 2121 and 4242 of the first, the rest to the second. -/
example : ∃ w', leaveAll chain idle 20 siteAB [user2, user] queueWorld = .ok w' ∧ held w' (.token tA) pAB = 0 ∧ held w' (.token tB) pAB = 0 ∧
    supplyAt w' lpAB = 0 := by
  obtain ⟨w', h, h0, h1, h2, _⟩ := C120_all_leave lawful (k := siteAB) idle (gas := 20) (by decide) (us := [user2, user]) queue_reachable
    sound_queue (fits_of rfl rfl _) (by decide +kernel) (by simp [isUser_user, isUser_user2]) (by simp) (by decide +kernel)
    (by decide +kernel) (by decide +kernel) (by decide +kernel)
  exact ⟨w', h, h0, h1, h2⟩

end Demo

end Halo
