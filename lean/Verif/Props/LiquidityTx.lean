import Verif.Lemmas.LiqL
import Verif.Props.Router
import Verif.Props.Liquidity
import Verif.Props.Guards
/-! # C15–C19, C23 and C26 for whole transactions

A user `S` deposits into a pair, or sends LP tokens `k.lt` to it with a withdrawal request. What everybody holds before and
after is compared directly; nothing here mentions how the pair computes shares and refunds. -/

namespace Halo
open _root_.Halo.Spec

/-! ## Withdrawals -/

/-- `S` gave `x` LP tokens and got `q0`, `q1` of the assets; nobody else noticed. -/
structure Withdrawn (k : PairSite) (S : Addr) (x q0 q1 : Nat) (w w' : World) : Prop where
  pair0 : held w' k.i0 k.a + q0 = held w k.i0 k.a
  pair1 : held w' k.i1 k.a + q1 = held w k.i1 k.a
  user0 : held w' k.i0 S = held w k.i0 S + q0
  user1 : held w' k.i1 S = held w k.i1 S + q1
  lp : held w' (.token k.lt) S + x = held w (.token k.lt) S
  supply : supplyAt w' k.lt + x = supplyAt w k.lt
  lp_rest : ∀ b, b ≠ S → held w' (.token k.lt) b = held w (.token k.lt) b
  people : ∀ b, b ≠ S → b ≠ k.a → ∀ i, held w' i b = held w i b
  assets : ∀ i, i ≠ k.i0 → i ≠ k.i1 → i ≠ .token k.lt → ∀ b, held w' i b = held w i b
  supplies : ∀ t, t ≠ k.lt → supplyAt w' t = supplyAt w t
  keep : MintKeep w w'

namespace PairSite
variable {c : Chain} {k : PairSite}

/-- What a withdrawal does. -/
theorem Good.withdrawn {v v' : World} (hgv : k.Good v) (hx : k.Ctx c) (hra : c.api.resolve k.a = .ok k.a) {x : Nat} {adv : Adv}
    {n n' : Nat} {S : Addr} (hSr : c.api.resolve S = .ok S) (hSa : S ≠ k.a)
    (hr : Halo.run c adv n v [.msg S (plain (.exec k.lt (.send k.a x .withdrawLiquidity) []))] = .ok (n', v')) :
    supplyAt v k.lt ≠ 0 ∧ x ≠ 0 ∧ refund (held v k.i0 k.a) x (supplyAt v k.lt) ≠ 0 ∧
      refund (held v k.i1 k.a) x (supplyAt v k.lt) ≠ 0 ∧ k.Sound c v' ∧
      Withdrawn k S x (refund (held v k.i0 k.a) x (supplyAt v k.lt)) (refund (held v k.i1 k.a) x (supplyAt v k.lt)) v v' := by
  obtain ⟨r0, r1, v1, v2, v3, e0, e1, hT, n0, n1, f1, f2, f3, f4, hg⟩ := hgv.withdraw_exact hx hra hSr hSa hr
  rw [← e0, ← e1]
  have o1 : ∀ i, i ≠ .token k.lt → ∀ b, held v1 i b = held v i b := f1.other
  have o2 : ∀ i, i ≠ k.i0 → ∀ b, held v2 i b = held v1 i b := f2.other
  have o3 : ∀ i, i ≠ k.i1 → ∀ b, held v3 i b = held v2 i b := f3.other
  have o4 : ∀ i, i ≠ .token k.lt → ∀ b, held v' i b = held v3 i b := f4.other
  have l0 := Ne.symm hx.lp0
  have l1 := Ne.symm hx.lp1
  have z0 : ∀ b, held v' k.i0 b = held v2 k.i0 b := fun b => by rw [o4 _ hx.lp0, o3 _ hx.ne]
  have z0' : ∀ b, held v1 k.i0 b = held v k.i0 b := fun b => o1 _ hx.lp0 b
  have z1 : ∀ b, held v' k.i1 b = held v3 k.i1 b := fun b => o4 _ hx.lp1 b
  have z1' : ∀ b, held v2 k.i1 b = held v k.i1 b := fun b => by rw [o2 _ (Ne.symm hx.ne), o1 _ hx.lp1]
  have zl : ∀ b, held v3 (.token k.lt) b = held v1 (.token k.lt) b := fun b => by rw [o3 _ l1, o2 _ l0]
  refine ⟨hT, f4.pos, n0, n1, hg.sound hx, ?_, ?_, ?_, ?_, ?_, ?_, ?_, ?_, ?_, ?_,
    ((f1.keep.mints.trans f2.keep.mints).trans f3.keep.mints).trans f4.keep⟩
  · rw [z0, ← z0']; exact f2.src_bal
  · rw [z1, ← z1']; exact f3.src_bal
  · rw [z0, ← z0']; exact f2.dst_bal
  · rw [z1, ← z1']; exact f3.dst_bal
  · rw [f4.rest S hSa, zl]; exact f1.src_bal
  · have := f4.supply
    rw [f3.keep.supply, f2.keep.supply, f1.keep.supply] at this
    exact this
  · intro b hb
    by_cases hba : b = k.a
    · subst hba
      have h1 := f4.bal
      rw [zl, f1.dst_bal] at h1
      omega
    · rw [f4.rest b hba, zl, f1.rest b hb hba]
  · intro b hb hba i
    by_cases hl : i = .token k.lt
    · subst hl; rw [f4.rest b hba, zl, f1.rest b hb hba]
    · rw [o4 i hl]
      by_cases h1 : i = k.i1
      · subst h1; rw [f3.rest b hba hb, o2 _ (Ne.symm hx.ne), o1 _ hl]
      · rw [o3 i h1]
        by_cases h0 : i = k.i0
        · subst h0; rw [f2.rest b hba hb, o1 _ hl]
        · rw [o2 i h0, o1 i hl]
  · intro i h0 h1 hl b
    rw [o4 i hl, o3 i h1, o2 i h0, o1 i hl]
  · intro t ht
    rw [f4.supplies t ht, f3.keep.supply, f2.keep.supply, f1.keep.supply]

end PairSite

theorem withdraw_tx {c : Chain} (hc : c.Lawful) {w w' : World} (hw : Reachable c w) {k : PairSite}
    (hk : k.Sound c w) {x : Nat} {adv : Adv} {gas : Nat} {S : Addr} (hS : c.IsUser S)
    (h : runTx c adv gas w S (.exec k.lt (.send k.a x .withdrawLiquidity) []) = .ok w') :
    supplyAt w k.lt ≠ 0 ∧ x ≠ 0 ∧ refund (held w k.i0 k.a) x (supplyAt w k.lt) ≠ 0 ∧
      refund (held w k.i1 k.a) x (supplyAt w k.lt) ≠ 0 ∧ k.Sound c w' ∧
      Withdrawn k S x (refund (held w k.i0 k.a) x (supplyAt w k.lt)) (refund (held w k.i1 k.a) x (supplyAt w k.lt)) w w' := by
  obtain ⟨n, hr⟩ := runTx_inv h
  exact (hk.good hc hw).withdrawn (hk.ctx hc) (addr_facts hc hw hk.pair).1 (PairSite.resolve_of_validate hS.2)
    ((addr_facts hc hw hk.pair).2 S hS) hr

theorem refund_spec {r x S : Nat} (hS : S ≠ 0) :
    refund r x S * S ≤ r * x ∧ r * x * 10 ^ 18 < (refund r x S + 1) * S * 10 ^ 18 + r * S :=
  refund_arith (by norm_num) (Nat.pos_of_ne_zero hS) rfl rfl

/-- C16 and C23: a withdrawal transaction of `x` of `T` LP tokens from reserves `a`, `b` pays amounts `q0`, `q1` with
`q ≤ r*x/T` and `r*x/T < q + 1 + r/10^18`; exactly these leave the pair, and they go to the user, who gives up exactly `x`
LP tokens, which are destroyed. No other balance changes. Both amounts are positive. -/
theorem C16_withdraw_tx {c : Chain} (hc : c.Lawful) {w w' : World} (hw : Reachable c w) {k : PairSite}
    (hk : k.Sound c w) {x : Nat} {adv : Adv} {gas : Nat} {S : Addr} (hS : c.IsUser S)
    (h : runTx c adv gas w S (.exec k.lt (.send k.a x .withdrawLiquidity) []) = .ok w') :
    let T := supplyAt w k.lt
    let a := held w k.i0 k.a
    let b := held w k.i1 k.a
    ∃ q0 q1, Withdrawn k S x q0 q1 w w' ∧ 0 < q0 ∧ 0 < q1 ∧
      q0 * T ≤ a * x ∧ a * x * 10 ^ 18 < (q0 + 1) * T * 10 ^ 18 + a * T ∧
      q1 * T ≤ b * x ∧ b * x * 10 ^ 18 < (q1 + 1) * T * 10 ^ 18 + b * T := by
  obtain ⟨hT, _, n0, n1, _, hwd⟩ := withdraw_tx hc hw hk hS h
  obtain ⟨a1, a2⟩ := refund_spec (r := held w k.i0 k.a) (x := x) hT
  obtain ⟨b1, b2⟩ := refund_spec (r := held w k.i1 k.a) (x := x) hT
  exact ⟨_, _, hwd, Nat.pos_of_ne_zero n0, Nat.pos_of_ne_zero n1, a1, a2, b1, b2⟩

/-- C16: a withdrawal transaction does not lower what is behind each remaining LP token:
`r/T ≤ r'/T'` for both reserves. -/
theorem C16_withdraw_tx_backing {c : Chain} (hc : c.Lawful) {w w' : World} (hw : Reachable c w) {k : PairSite}
    (hk : k.Sound c w) {x : Nat} {adv : Adv} {gas : Nat} {S : Addr} (hS : c.IsUser S)
    (h : runTx c adv gas w S (.exec k.lt (.send k.a x .withdrawLiquidity) []) = .ok w') :
    held w k.i0 k.a * supplyAt w' k.lt ≤ held w' k.i0 k.a * supplyAt w k.lt ∧
    held w k.i1 k.a * supplyAt w' k.lt ≤ held w' k.i1 k.a * supplyAt w k.lt := by
  obtain ⟨q0, q1, hwd, _, _, a1, _, b1, _⟩ := C16_withdraw_tx hc hw hk hS h
  have key : ∀ {r r' T T' x q : Nat}, r' + q = r → T' + x = T → q * T ≤ r * x → r * T' ≤ r' * T := by
    intro r r' T T' x q h1 h2 h3
    subst h1 h2
    nlinarith
  exact ⟨key hwd.pair0 hwd.supply a1, key hwd.pair1 hwd.supply b1⟩

/-- C23: a withdrawal transaction of `x` LP tokens lowers their supply, and what the user has of them, by exactly `x`. -/
theorem C23_withdraw_tx {c : Chain} (hc : c.Lawful) {w w' : World} (hw : Reachable c w) {k : PairSite}
    (hk : k.Sound c w) {x : Nat} {adv : Adv} {gas : Nat} {S : Addr} (hS : c.IsUser S)
    (h : runTx c adv gas w S (.exec k.lt (.send k.a x .withdrawLiquidity) []) = .ok w') :
    supplyAt w' k.lt + x = supplyAt w k.lt ∧
    held w' (.token k.lt) S + x = held w (.token k.lt) S := by
  obtain ⟨_, _, hwd, _⟩ := C16_withdraw_tx hc hw hk hS h
  exact ⟨hwd.supply, hwd.lp⟩

/-! ## Deposits -/

/-- The request names the pair's two assets, in either order, with the amounts `d0` and `d1`. -/
def Names (k : PairSite) (assets : Asset × Asset) (d0 d1 : Nat) : Prop :=
  assets = (⟨k.i0, d0⟩, ⟨k.i1, d1⟩) ∨ assets = (⟨k.i1, d1⟩, ⟨k.i0, d0⟩)

/-- `S` paid `d0`, `d1` of the assets and `rcv` got `s` new LP tokens. Coins attached that are not the pair's assets went to
the pair too; nobody else noticed. -/
structure Deposited (k : PairSite) (S rcv : Addr) (funds : List Coin) (d0 d1 s : Nat) (w w' : World) : Prop where
  pair0 : held w' k.i0 k.a = held w k.i0 k.a + d0
  pair1 : held w' k.i1 k.a = held w k.i1 k.a + d1
  user0 : held w' k.i0 S + d0 = held w k.i0 S
  user1 : held w' k.i1 S + d1 = held w k.i1 S
  lp : held w' (.token k.lt) rcv = held w (.token k.lt) rcv + s
  supply : supplyAt w' k.lt = supplyAt w k.lt + s
  lp_rest : ∀ b, b ≠ rcv → held w' (.token k.lt) b = held w (.token k.lt) b
  people : ∀ b, b ≠ S → b ≠ k.a → ∀ i, i ≠ .token k.lt → held w' i b = held w i b
  tokens : ∀ t, .token t ≠ k.i0 → .token t ≠ k.i1 → t ≠ k.lt → ∀ b, held w' (.token t) b = held w (.token t) b
  stray : ∀ d, .native d ≠ k.i0 → .native d ≠ k.i1 →
    held w' (.native d) S + coinSum d funds = held w (.native d) S ∧
    held w' (.native d) k.a = held w (.native d) k.a + coinSum d funds
  supplies : ∀ t, t ≠ k.lt → supplyAt w' t = supplyAt w t
  keep : MintKeep w w'

namespace PairSite
variable {c : Chain} {k : PairSite}

/-- What a deposit does. -/
theorem Good.deposited {v v' : World} (hgv : k.Good v) (hx : k.Ctx c) (hra : c.api.resolve k.a = .ok k.a) {assets : Asset × Asset}
    {tol : Option Nat} {receiver : Option Str} {funds : List Coin} {adv : Adv} {n n' : Nat} {S : Addr} (hSa : S ≠ k.a)
    (hr : Halo.run c adv n v [.msg S (plain (.exec k.a (.provideLiquidity assets tol receiver) funds))] = .ok (n', v')) :
    ∃ d0 d1 s, Names k assets d0 d1 ∧ s ≠ 0 ∧ k.Sound c v' ∧ (∀ t, tol = some t → t < B128) ∧
      Pair.assertSlippageTolerance tol (d0, d1) (held v k.i0 k.a, held v k.i1 k.a) = .ok () ∧
      Pair.shareFor k.s.requirements S (supplyAt v k.lt) (d0, d1) (held v k.i0 k.a, held v k.i1 k.a) = .ok s ∧
      Deposited k S (receiver.getD S) funds d0 d1 s v v' := by
  obtain ⟨d0, d1, s, v1, v2, v3, e0, e1, s0, s1, hnd, hir, hslip, hsh, hm, f1, f2, f3, hg⟩ := hgv.deposit_exact hx hra hSa hr
  have hrange : ∀ t, tol = some t → t < B128 := by
    rintro t rfl
    simp only [ExecMsg.inRange, Bool.and_eq_true, decide_eq_true_eq, optLt] at hir
    exact hir.2
  have hnames : Names k assets d0 d1 := by
    obtain ⟨⟨i, x⟩, ⟨j, y⟩⟩ := assets
    rcases Pair.depositFor_eq_ok.mp e0 with ⟨h1, h2⟩ | ⟨h1, h2, h3⟩ <;>
      rcases Pair.depositFor_eq_ok.mp e1 with ⟨h4, h5⟩ | ⟨h4, h5, h6⟩ <;> simp only at *
    · exact absurd (h1.symm.trans h4) hx.ne
    · subst h1 h2 h5 h6; exact .inl rfl
    · subst h2 h3 h4 h5; exact .inr rfl
    · exact absurd (h2.symm.trans h5) hx.ne
  have hb : ∀ i b, (∀ d, i = .native d → coinSum d funds = 0) → held v1 i b = held v i b := by
    intro i b hi
    refine held_congr (fun d hd => ?_) (fun t _ => congrFun hm.contracts t)
    have h0 := hi d hd
    by_cases h1 : b = S
    · subst h1; have := hm.src_bal hSa d; omega
    · by_cases h2 : b = k.a
      · subst h2; have := hm.dst_bal hSa d; omega
      · exact hm.others d b h1 h2
  have hbo : ∀ i b, b ≠ S → b ≠ k.a → held v1 i b = held v i b := fun i b h1 h2 =>
    held_congr (fun d _ => hm.others d b h1 h2) (fun t _ => congrFun hm.contracts t)
  have o2 : ∀ i, i ≠ k.i0 → ∀ b, held v2 i b = held v1 i b := by
    intro i hi b
    rcases f1 with ⟨_, rfl⟩ | ⟨_, f⟩
    exacts [rfl, f.other i hi b]
  have o3 : ∀ i, i ≠ k.i1 → ∀ b, held v3 i b = held v2 i b := by
    intro i hi b
    rcases f2 with ⟨_, rfl⟩ | ⟨_, f⟩
    exacts [rfl, f.other i hi b]
  have o4 : ∀ i, i ≠ .token k.lt → ∀ b, held v' i b = held v3 i b := f3.other
  have sent : ∀ d x, (∃ z, (z = assets.1 ∨ z = assets.2) ∧ z = ⟨.native d, x⟩) → coinSum d funds = x := by
    rintro d x ⟨z, hz | hz, rfl⟩
    · rw [← hz] at s0; exact PairSite.coinSum_of_sent hnd rfl s0
    · rw [← hz] at s1; exact PairSite.coinSum_of_sent hnd rfl s1
  have side : ∀ i d u u', (∃ z, (z = assets.1 ∨ z = assets.2) ∧ z = ⟨i, d⟩) →
      ((i.isNative = true ∧ u' = u) ∨ (i.isNative = false ∧ Flow i S k.a d u u')) → (∀ b, held u i b = held v1 i b) →
      held u' i k.a = held v i k.a + d ∧ held u' i S + d = held v i S ∧
      (∀ b, b ≠ S → b ≠ k.a → held u' i b = held v i b) := by
    intro i d u u' hz hf hu
    rcases hf with ⟨hn, rfl⟩ | ⟨hn, f⟩
    · cases i with
      | token t => cases hn
      | native dn =>
        have h1 := sent dn d hz
        have h2 := hm.src_bal hSa dn
        have h3 := hm.dst_bal hSa dn
        refine ⟨?_, ?_, fun b h4 h5 => (hu b).trans (hbo _ b h4 h5)⟩
        · rw [hu]; simp only [held]; omega
        · rw [hu]; simp only [held]; omega
    · cases i with
      | native dn => cases hn
      | token t =>
        have hv : ∀ b, held u (.token t) b = held v (.token t) b := fun b =>
          (hu b).trans (hb _ b (fun d hd => by cases hd))
        refine ⟨?_, ?_, fun b h4 h5 => ?_⟩
        · rw [f.dst_bal, hv]
        · rw [f.src_bal, hv]
        · rw [f.rest b h4 h5, hv]
  have n0 : ∃ z, (z = assets.1 ∨ z = assets.2) ∧ z = ⟨k.i0, d0⟩ := by
    rcases hnames with rfl | rfl
    exacts [⟨_, .inl rfl, rfl⟩, ⟨_, .inr rfl, rfl⟩]
  have n1 : ∃ z, (z = assets.1 ∨ z = assets.2) ∧ z = ⟨k.i1, d1⟩ := by
    rcases hnames with rfl | rfl
    exacts [⟨_, .inr rfl, rfl⟩, ⟨_, .inl rfl, rfl⟩]
  obtain ⟨a1, a2, a3⟩ := side _ _ _ _ n0 f1 (fun _ => rfl)
  obtain ⟨b1, b2, b3⟩ := side _ _ _ _ n1 f2 (fun b => o2 _ (Ne.symm hx.ne) b)
  have z0 : ∀ b, held v' k.i0 b = held v2 k.i0 b := fun b => by rw [o4 _ hx.lp0, o3 _ hx.ne]
  have z1 : ∀ b, held v' k.i1 b = held v3 k.i1 b := fun b => o4 _ hx.lp1 b
  have zl : ∀ b, held v3 (.token k.lt) b = held v (.token k.lt) b := fun b => by
    rw [o3 _ (Ne.symm hx.lp1), o2 _ (Ne.symm hx.lp0), hb _ b (fun d hd => by cases hd)]
  have k2 : ∀ t, supplyAt v2 t = supplyAt v t := by
    intro t
    rcases f1 with ⟨_, rfl⟩ | ⟨_, f⟩
    · exact supplyAt_congr (congrFun hm.contracts t)
    · rw [f.keep.supply]; exact supplyAt_congr (congrFun hm.contracts t)
  have k3 : ∀ t, supplyAt v3 t = supplyAt v t := by
    intro t
    rcases f2 with ⟨_, rfl⟩ | ⟨_, f⟩
    · exact k2 t
    · rw [f.keep.supply]; exact k2 t
  have m2 : MintKeep v v2 := by
    have m1 : MintKeep v v1 := fun b => .inl (congrFun hm.contracts b)
    rcases f1 with ⟨_, rfl⟩ | ⟨_, f⟩
    exacts [m1, m1.trans f.keep.mints]
  have m3 : MintKeep v v3 := by
    rcases f2 with ⟨_, rfl⟩ | ⟨_, f⟩
    exacts [m2, m2.trans f.keep.mints]
  refine ⟨d0, d1, s, hnames, f3.pos, hg.sound hx, hrange, hslip, hsh, ?_, ?_, ?_, ?_, ?_, ?_, ?_, ?_, ?_, ?_, ?_, m3.trans f3.keep⟩
  · rw [z0]; exact a1
  · rw [z1]; exact b1
  · rw [z0]; exact a2
  · rw [z1]; exact b2
  · rw [f3.bal, zl]
  · rw [f3.supply, k3]
  · intro b hb; rw [f3.rest b hb, zl]
  · intro b hb hba i hl
    by_cases h1 : i = k.i1
    · subst h1; rw [z1]; exact b3 b hb hba
    · by_cases h0 : i = k.i0
      · subst h0; rw [z0]; exact a3 b hb hba
      · rw [o4 i hl, o3 i h1, o2 i h0, hbo i b hb hba]
  · intro t h0 h1 hl b
    rw [o4 _ (fun h => hl (by cases h; rfl)), o3 _ h1, o2 _ h0, hb _ b (fun d hd => by cases hd)]
  · intro d h0 h1
    have e : ∀ b, held v' (.native d) b = v1.bal d b := fun b => by
      rw [o4 _ (by simp), o3 _ h1, o2 _ h0]; rfl
    rw [e, e]
    exact ⟨hm.src_bal hSa d, hm.dst_bal hSa d⟩
  · intro t ht; rw [f3.supplies t ht, k3]

end PairSite

theorem deposit_tx {c : Chain} (hc : c.Lawful) {w w' : World} (hw : Reachable c w) {k : PairSite}
    (hk : k.Sound c w) {assets : Asset × Asset} {tol : Option Nat} {receiver : Option Str} {funds : List Coin} {adv : Adv}
    {gas : Nat} {S : Addr} (hS : c.IsUser S)
    (h : runTx c adv gas w S (.exec k.a (.provideLiquidity assets tol receiver) funds) = .ok w') :
    ∃ d0 d1 s, Names k assets d0 d1 ∧ s ≠ 0 ∧ k.Sound c w' ∧ (∀ t, tol = some t → t < B128) ∧
      Pair.assertSlippageTolerance tol (d0, d1) (held w k.i0 k.a, held w k.i1 k.a) = .ok () ∧
      Pair.shareFor k.s.requirements S (supplyAt w k.lt) (d0, d1) (held w k.i0 k.a, held w k.i1 k.a) = .ok s ∧
      Deposited k S (receiver.getD S) funds d0 d1 s w w' := by
  obtain ⟨n, hr⟩ := runTx_inv h
  exact (hk.good hc hw).deposited (hk.ctx hc) (addr_facts hc hw hk.pair).1 ((addr_facts hc hw hk.pair).2 S hS) hr

/-- C26 and C19: a deposit transaction names the pair's two assets and takes exactly the named amounts from the user, in
coins or in tokens, and gives them to the pair; the receiver (the user if none is named) gets a positive number of new LP
tokens. The only other balances that change are those of attached coins that are not assets of the pair: the pair keeps
them. -/
theorem C26_deposit_tx {c : Chain} (hc : c.Lawful) {w w' : World} (hw : Reachable c w) {k : PairSite}
    (hk : k.Sound c w) {assets : Asset × Asset} {tol : Option Nat} {receiver : Option Str} {funds : List Coin} {adv : Adv}
    {gas : Nat} {S : Addr} (hS : c.IsUser S)
    (h : runTx c adv gas w S (.exec k.a (.provideLiquidity assets tol receiver) funds) = .ok w') :
    ∃ d0 d1 s, Names k assets d0 d1 ∧ 0 < s ∧ Deposited k S (receiver.getD S) funds d0 d1 s w w' := by
  obtain ⟨d0, d1, s, hn, hs, _, _, _, _, hd⟩ := deposit_tx hc hw hk hS h
  exact ⟨d0, d1, s, hn, Nat.pos_of_ne_zero hs, hd⟩

/-- C19: after a deposit transaction there are more LP tokens than before, and the receiver has all of the new ones. -/
theorem C19_deposit_tx {c : Chain} (hc : c.Lawful) {w w' : World} (hw : Reachable c w) {k : PairSite}
    (hk : k.Sound c w) {assets : Asset × Asset} {tol : Option Nat} {receiver : Option Str} {funds : List Coin} {adv : Adv}
    {gas : Nat} {S : Addr} (hS : c.IsUser S)
    (h : runTx c adv gas w S (.exec k.a (.provideLiquidity assets tol receiver) funds) = .ok w') :
    supplyAt w k.lt < supplyAt w' k.lt ∧
    held w' (.token k.lt) (receiver.getD S) - held w (.token k.lt) (receiver.getD S) =
      supplyAt w' k.lt - supplyAt w k.lt := by
  obtain ⟨_, _, s, _, hs, hd⟩ := C26_deposit_tx hc hw hk hS h
  have h1 := hd.supply
  have h2 := hd.lp
  omega

/-- C15: a deposit transaction into a pair with LP tokens outstanding does not lower what is behind each of them
(`r/T ≤ r'/T'` for both reserves), and not a single LP token more could have been minted without doing so. -/
theorem C15_deposit_tx {c : Chain} (hc : c.Lawful) {w w' : World} (hw : Reachable c w) {k : PairSite}
    (hk : k.Sound c w) {assets : Asset × Asset} {tol : Option Nat} {receiver : Option Str} {funds : List Coin} {adv : Adv}
    {gas : Nat} {S : Addr} (hS : c.IsUser S)
    (h : runTx c adv gas w S (.exec k.a (.provideLiquidity assets tol receiver) funds) = .ok w')
    (hT : supplyAt w k.lt ≠ 0) :
    (held w k.i0 k.a * supplyAt w' k.lt ≤ held w' k.i0 k.a * supplyAt w k.lt ∧
      held w k.i1 k.a * supplyAt w' k.lt ≤ held w' k.i1 k.a * supplyAt w k.lt) ∧
    ∀ n, held w k.i0 k.a * n ≤ held w' k.i0 k.a * supplyAt w k.lt →
      held w k.i1 k.a * n ≤ held w' k.i1 k.a * supplyAt w k.lt → n ≤ supplyAt w' k.lt := by
  obtain ⟨d0, d1, s, _, hs, _, _, _, hsh, hd⟩ := deposit_tx hc hw hk hS h
  obtain ⟨a1, a2⟩ := share_le hsh hT
  rw [hd.pair0, hd.pair1, hd.supply]
  refine ⟨⟨by nlinarith, by nlinarith⟩, ?_⟩
  intro n h1 h2
  by_cases hn : n ≤ supplyAt w k.lt
  · omega
  · obtain ⟨e, rfl⟩ : ∃ e, n = supplyAt w k.lt + e := ⟨n - supplyAt w k.lt, by omega⟩
    have := share_max hsh hT e (by nlinarith) (by nlinarith)
    omega

/-- C18: a deposit transaction into a pair without LP tokens outstanding was made by a whitelisted user, brought at least
both minimums and mints `floor(sqrt(d0*d1))`. -/
theorem C18_deposit_tx {c : Chain} (hc : c.Lawful) {w w' : World} (hw : Reachable c w) {k : PairSite}
    (hk : k.Sound c w) {assets : Asset × Asset} {tol : Option Nat} {receiver : Option Str} {funds : List Coin} {adv : Adv}
    {gas : Nat} {S : Addr} (hS : c.IsUser S)
    (h : runTx c adv gas w S (.exec k.a (.provideLiquidity assets tol receiver) funds) = .ok w')
    (hT : supplyAt w k.lt = 0) :
    S ∈ k.s.requirements.whitelist ∧
    held w k.i0 k.a + k.s.requirements.firstAssetMinimum ≤ held w' k.i0 k.a ∧
    held w k.i1 k.a + k.s.requirements.secondAssetMinimum ≤ held w' k.i1 k.a ∧
    supplyAt w' k.lt ^ 2 ≤ (held w' k.i0 k.a - held w k.i0 k.a) * (held w' k.i1 k.a - held w k.i1 k.a) ∧
    (held w' k.i0 k.a - held w k.i0 k.a) * (held w' k.i1 k.a - held w k.i1 k.a) < (supplyAt w' k.lt + 1) ^ 2 := by
  obtain ⟨d0, d1, s, _, hs, _, _, _, hsh, hd⟩ := deposit_tx hc hw hk hS h
  rw [hT] at hsh
  unfold Pair.shareFor at hsh
  simp only [↓reduceIte, bind_eq_ok, require_eq_ok, Uint128.mulChk_eq_ok, pure_eq_ok, Uint128.isqrt] at hsh
  obtain ⟨_, h1, _, h2, _, ⟨_, rfl⟩, rfl⟩ := hsh
  have e0 : held w' k.i0 k.a - held w k.i0 k.a = d0 := by have := hd.pair0; omega
  have e1 : held w' k.i1 k.a - held w k.i1 k.a = d1 := by have := hd.pair1; omega
  rw [e0, e1, hd.supply, hT, hd.pair0, hd.pair1, Nat.zero_add]
  simp only [not_or, Nat.not_lt] at h2
  exact ⟨by simpa using h1, by omega, by omega, Nat.sqrt_le' _, Nat.lt_succ_sqrt' _⟩

/-- C17. A user who deposits and then withdraws exactly the LP tokens they got holds at most as much of either
asset as before, if there were LP tokens outstanding or the pair was empty. It is false for the first deposit into a pair that holds
donations (`C17_counterexample`). -/
theorem C17_tx {c : Chain} (hc : c.Lawful) {w w1 w2 : World} (hw : Reachable c w) {k : PairSite}
    (hk : k.Sound c w) {assets : Asset × Asset} {tol : Option Nat} {funds : List Coin} {adv adv' : Adv}
    {gas gas' : Nat} {S : Addr} {s : Nat} (hS : c.IsUser S)
    (h1 : runTx c adv gas w S (.exec k.a (.provideLiquidity assets tol none) funds) = .ok w1)
    (hs : held w1 (.token k.lt) S = held w (.token k.lt) S + s)
    (h2 : runTx c adv' gas' w1 S (.exec k.lt (.send k.a s .withdrawLiquidity) []) = .ok w2)
    (hp : supplyAt w k.lt ≠ 0 ∨ (held w k.i0 k.a = 0 ∧ held w k.i1 k.a = 0)) :
    held w2 k.i0 S ≤ held w k.i0 S ∧ held w2 k.i1 S ≤ held w k.i1 S := by
  obtain ⟨d0, d1, s', _, hs', hk1, _, _, hsh, hd⟩ := deposit_tx hc hw hk hS h1
  have hw1 : Reachable c w1 := .step _ _ hw (.tx _ _ _ _ _ _ hS h1)
  obtain ⟨q0, q1, hwd, _, _, a1, _, b1, _⟩ := C16_withdraw_tx hc hw1 hk1 hS h2
  have e : s' = s := by
    have := hd.lp
    simp only [Option.getD_none] at this
    omega
  subst e
  have key : ∀ {x d r S n : Nat}, S + n ≠ 0 → x * (S + n) ≤ (r + d) * n → n * r ≤ d * S → x ≤ d := by
    intro x d r S n h0 h1 h2
    have : x * (S + n) ≤ d * (S + n) := by nlinarith
    exact Nat.le_of_mul_le_mul_right this (Nat.pos_of_ne_zero h0)
  have ne : supplyAt w k.lt + s' ≠ 0 := by omega
  rw [hd.pair0, hd.supply] at a1
  rw [hd.pair1, hd.supply] at b1
  have u0 := hd.user0
  have u1 := hd.user1
  have x0 := hwd.user0
  have x1 := hwd.user1
  have y : q0 ≤ d0 ∧ q1 ≤ d1 := by
    by_cases hT : supplyAt w k.lt = 0
    · obtain ⟨p0, p1⟩ := hp.resolve_left (by simpa using hT)
      rw [p0] at a1
      rw [p1] at b1
      exact ⟨key ne a1 (by simp), key ne b1 (by simp)⟩
    · obtain ⟨c0, c1⟩ := share_le hsh hT
      exact ⟨key ne a1 c0, key ne b1 c1⟩
  omega

/-- C13: a deposit transaction with `slippage_tolerance = t` has `t ≤ 1` and, with `d0`, `d1` the amounts paid into the
reserves `p0`, `p1`, `(d0/d1)*(1-t) < p0/p1 + 2*10^-18`, and the same with the assets exchanged. -/
theorem C13_deposit_tx {c : Chain} (hc : c.Lawful) {w w' : World} (hw : Reachable c w) {k : PairSite}
    (hk : k.Sound c w) {assets : Asset × Asset} {t : Nat} {receiver : Option Str} {funds : List Coin}
    {adv : Adv} {gas : Nat} {S : Addr} (hS : c.IsUser S)
    (h : runTx c adv gas w S (.exec k.a (.provideLiquidity assets (some t) receiver) funds) = .ok w') :
    let p0 := held w k.i0 k.a
    let p1 := held w k.i1 k.a
    let d0 := held w' k.i0 k.a - p0
    let d1 := held w' k.i1 k.a - p1
    t ≤ 10 ^ 18 ∧ d0 ≠ 0 ∧ d1 ≠ 0 ∧ p0 ≠ 0 ∧ p1 ≠ 0 ∧
      d0 * (10 ^ 18 - t) * p1 < (p0 * 10 ^ 18 + 2 * p1) * d1 ∧
      d1 * (10 ^ 18 - t) * p0 < (p1 * 10 ^ 18 + 2 * p0) * d0 := by
  obtain ⟨d0, d1, s, _, hs, _, ht, hsl, _, hd⟩ := deposit_tx hc hw hk hS h
  simp only [hd.pair0, hd.pair1, Nat.add_sub_cancel_left]
  exact Pair.slippage_inv (ht t rfl) hsl

namespace Demo

/-- 500 LP tokens back. -/
def withdrawn : World := worldOf (runTx chain idle 20 deployed user (.exec lpAB (.send pAB 500 .withdrawLiquidity) []))
theorem withdrawn_run : runTx chain idle 20 deployed user (.exec lpAB (.send pAB 500 .withdrawLiquidity) []) =
    .ok withdrawn := worldOf_eq (by decide +kernel)
example := C16_withdraw_tx lawful deployed_reachable sound_AB isUser_user withdrawn_run
example : siteAB.pool withdrawn = ⟨10000 - 353, 20000 - 707, 14142 - 500⟩ := by decide +kernel

/-- `user` allows the pair to take more tokens. -/
def allowed : World := worldOf (runs [approve tA pAB, approve tB pAB] deployed)
theorem allowed_run : runs [approve tA pAB, approve tB pAB] deployed = .ok allowed := worldOf_eq (by decide +kernel)
theorem allowed_reachable : Reachable chain allowed := deployed_reachable.later (later_runs allowed_run)
theorem sound_allowed : siteAB.Sound chain allowed :=
  sound_of (k := siteAB) (x := tA) (y := tB) (by decide +kernel) ⟨rfl, rfl, rfl⟩ rfl rfl (by decide +kernel)
    (by decide +kernel)

/-- A deposit of 1000 A and 2001 B with 5 u attached by mistake, and its withdrawal. -/
def more : CosmosMsg := .exec pAB (.provideLiquidity (⟨.token tB, 2001⟩, ⟨.token tA, 1000⟩) (some (10 ^ 16)) none) [⟨[117], 5⟩]
def added : World := worldOf (runTx chain idle 20 allowed user more)
theorem added_run : runTx chain idle 20 allowed user more = .ok added := worldOf_eq (by decide +kernel)
def back : World := worldOf (runTx chain idle 20 added user (.exec lpAB (.send pAB 1414 .withdrawLiquidity) []))
theorem back_run : runTx chain idle 20 added user (.exec lpAB (.send pAB 1414 .withdrawLiquidity) []) = .ok back :=
  worldOf_eq (by decide +kernel)

example := C26_deposit_tx lawful allowed_reachable sound_allowed isUser_user added_run
example := C15_deposit_tx lawful allowed_reachable sound_allowed isUser_user added_run (by decide +kernel)
example := C13_deposit_tx lawful allowed_reachable sound_allowed isUser_user added_run
example := C17_tx lawful allowed_reachable sound_allowed isUser_user added_run (s := 1414) (by decide +kernel)
  back_run (.inl (by decide +kernel))
example : siteAB.pool added = ⟨11000, 22001, 15556⟩ ∧ held added (.native [117]) pAB = 5 := by decide +kernel
example : held allowed (.token tA) user = held back (.token tA) user + 1 ∧
    held allowed (.token tB) user = held back (.token tB) user + 2 := by decide +kernel

/-- Before the first deposit. -/
def fresh : World := worldOf (runs (setup.take 11) genesis)
theorem fresh_run : runs (setup.take 11) genesis = .ok fresh := worldOf_eq (by decide +kernel)
theorem sound_fresh : siteAB.Sound chain fresh :=
  sound_of (k := siteAB) (x := tA) (y := tB) (by decide +kernel) ⟨rfl, rfl, rfl⟩ rfl rfl (by decide +kernel)
    (by decide +kernel)
def first : World := worldOf (runTx chain idle 20 fresh user (provideMsg pAB tA tB))
theorem first_run : runTx chain idle 20 fresh user (provideMsg pAB tA tB) = .ok first := worldOf_eq (by decide +kernel)
example := C18_deposit_tx lawful (genesis_reachable.later (later_runs fresh_run)) sound_fresh isUser_user first_run
  (by decide +kernel)

end Demo
end Halo
