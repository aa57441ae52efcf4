import Verif.Lemmas.PoolMain
import Verif.Lemmas.TokenInv
import Verif.Lemmas.Pricing
/-! # Pools over all histories, and what pool moves do to the value of a share (helper lemmas for C20–C22) -/

namespace Halo
open _root_.Halo.Spec

theorem Later.trans {c : Chain} {u v w : World} (h1 : Later c u v) (h2 : Later c v w) : Later c u w := by
  induction h2 with
  | refl => exact h1
  | step v w _ hs ih => exact .step _ _ _ ih hs

/-- A step leaves the total of every native coin alone. -/
theorem bank_total_step {c : Chain} {adv : Adv} {n : Nat} {w w' : World} {f : Frame} {fs : List Frame}
    (h : StepI c adv n w f w' fs) (d : Denom) : (w'.bank d).total = (w.bank d).total := by
  cases h with
  | bank _ _ _ _ _ _ _ _ hm => exact (moveCoins_inv hm).total d
  | token _ _ _ _ _ me _ _ _ _ _ _ hm | pair _ _ _ _ _ me _ _ _ _ _ _ hm | factory _ _ _ _ _ me _ _ _ _ _ _ hm
  | router _ _ _ _ _ me _ _ _ _ _ _ hm => exact (moveCoins_inv hm).total d
  | other _ _ _ _ _ _ _ _ _ _ hm => exact (moveCoins_inv hm).total d
  | inst _ _ _ _ _ _ _ _ _ _ _ _ _ _ hm => exact (moveCoins_inv hm).total d
  | migrate | admin | replyPair | replyFactory | replyOther => rfl

/-- At most `B` units of the asset can exist: the native coin's total is at most `B`; the token's supply is at most `B`
and its minter, if any, is capped at no more than `B`. -/
def Limited (B : Nat) (w : World) : AssetInfo → Prop
  | .native d => (w.bank d).total ≤ B
  | .token t => (∃ adm st, w.contracts t = some ⟨adm, .token st⟩ ∧ st.totalSupply ≤ B ∧
      ∀ m, st.mint = some m → ∃ k, m.cap = some k ∧ k ≤ B) ∨ ∃ adm, w.contracts t = some ⟨adm, .other⟩

theorem Limited.step {c : Chain} {adv : Adv} {n : Nat} {w w' : World} {f : Frame} {fs : List Frame} {B : Nat}
    {i : AssetInfo} (hl : Limited B w i) (h : StepI c adv n w f w' fs) : Limited B w' i := by
  cases i with
  | native d => exact (bank_total_step h d).trans_le hl
  | token t =>
    rcases hl with ⟨adm, st, hst, h1, h2⟩ | ⟨adm, ho⟩
    · rcases tok_step h hst with ⟨adm', h3, _⟩ | h3 | ⟨_, _, _, _, _, st', _, _, _, he, h3, _⟩
      · exact .inl ⟨adm', st, h3, h1, h2⟩
      · exact .inr ⟨adm, h3⟩
      · refine .inl ⟨adm, st', h3, ?_⟩
        cases he with
        | mint dst x md _ _ hm _ _ hcap =>
          obtain ⟨k, hk, hkb⟩ := h2 md hm
          exact ⟨(hcap k hk).trans hkb, h2⟩
        | burn | burnFrom => exact ⟨le_trans (Nat.sub_le _ _) h1, h2⟩
        | renounce => exact ⟨h1, fun m hm => by cases hm⟩
        | newMinter a md hm =>
          refine ⟨h1, fun m hm' => ?_⟩
          cases hm'
          exact h2 md hm
        | _ => exact ⟨h1, h2⟩
    · exact .inr ((other_step h ho).imp fun _ h => h.1)

theorem Limited.held_le {w : World} {B : Nat} {i : AssetInfo} (hl : Limited B w i) (ht : TokensOk w) (b : Addr) :
    held w i b ≤ B := by
  cases i with
  | native d => exact (AMap.getD0_le_total _ _).trans hl
  | token t =>
    rcases hl with ⟨adm, st, hst, h1, _⟩ | ⟨adm, ho⟩
    · rw [held_token hst]
      have := (ht t adm st hst).total
      have := AMap.getD0_le_total st.balances b
      omega
    · simp [held, ho]

namespace PairSite
variable {c : Chain} {k : PairSite}

/-- The pair's address is in normal form. -/
theorem Good.resolve {w : World} (hw : ContractsAt c w) (hx : k.Ctx c) (hg : k.Good w) :
    c.api.resolve k.a = .ok k.a := by
  obtain ⟨n, _, hn⟩ := hw _ _ hg.pair
  rw [hn]
  exact hx.law.resolve_addr n

/-- The refinement over histories. -/
theorem Good.hist (hx : k.Ctx c) {w w' : World} (hw : Reachable c w) (hg : k.Good w) {tr : List (World × Frame)}
    (hl : Hist c w tr w') : k.Broken w' ∨ (k.Good w' ∧ Path (k.pool w) (k.calls c tr) (k.pool w')) := by
  induction hl with
  | refl => exact .inr ⟨hg, .done _ _ (Drift.refl _)⟩
  | tx tr adv gas v w' signer m hl hu hxx ih =>
    have hv := hw.later hl.later
    obtain ⟨n, hr⟩ := runTx_inv hxx
    rcases ih with hb | ⟨hg', mv⟩
    · exact .inl (hb.run hr)
    have hq : k.Quiet [.msg signer (plain m)] := by
      intro f hf
      simp only [List.mem_singleton] at hf
      subst hf
      have key : ∀ b ct, v.contracts b = some ct → signer ≠ b := by
        rintro b ct hb rfl
        obtain ⟨j, _, hj⟩ := hv.contractsAt _ _ hb
        exact hu.1 j hj.symm
      obtain ⟨st, hlp, _⟩ := hg'.lp
      refine ⟨key _ _ hg'.pair, key _ _ hlp, fun e => ?_, fun e => ?_⟩
      · obtain ⟨adm, st, h⟩ := hg'.asset0 _ e
        exact key _ _ h rfl
      · obtain ⟨adm, st, h⟩ := hg'.asset1 _ e
        exact key _ _ h rfl
    rcases Good.run hx (hg'.resolve hv.contractsAt hx) _ hg' (hv.sane.start hu m) hq hr with hb | ⟨g2, mv2⟩
    · exact .inl hb
    · rw [calls_append]
      exact .inr ⟨g2, mv.append mv2⟩
  | block tr v b hl ih =>
    rcases ih with hb | ⟨hg', mv⟩
    · exact .inl hb
    · exact .inr ⟨⟨hg'.live, hg'.asset0, hg'.asset1, hg'.lp⟩, mv⟩
  | env tr v bank' hl hb ih =>
    rcases ih with hbr | ⟨hg', mv⟩
    · exact .inl hbr
    have hv := hw.later hl.later
    have dr : Drift (k.pool v) (k.pool { v with bank := bank' }) := by
      obtain ⟨n, _, hn⟩ := hv.contractsAt _ _ hg'.pair
      refine ⟨?_, ?_, le_refl _⟩
      · simp only [pool]
        cases k.i0 with
        | native d => simp only [held, World.bal]; rw [hn]; exact hb d n
        | token t => exact le_refl _
      · simp only [pool]
        cases k.i1 with
        | native d => simp only [held, World.bal]; rw [hn]; exact hb d n
        | token t => exact le_refl _
    have := mv.append (.done _ _ dr)
    rw [List.append_nil] at this
    exact .inr ⟨⟨hg'.live, hg'.asset0, hg'.asset1, hg'.lp⟩, this⟩

/-- A request is always made to the pool as it was then; for a swap, with the offer on top. -/
theorem callOf_pool {e : World × Frame} {b : Pool} {l : Call} (h : k.callOf c e = some (b, l)) :
    match l with
    | .swap0 x => b.r0 = (k.pool e.1).r0 - x ∧ b.r1 = (k.pool e.1).r1 ∧ b.supply = (k.pool e.1).supply
    | .swap1 x => b.r0 = (k.pool e.1).r0 ∧ b.r1 = (k.pool e.1).r1 - x ∧ b.supply = (k.pool e.1).supply
    | _ => b = k.pool e.1 := by
  obtain ⟨w, f⟩ := e
  cases f with
  | reply => cases h
  | msg t sm =>
    obtain ⟨m, id⟩ := sm
    cases m with
    | exec target em funds =>
      cases em with
      | receive snd x hm =>
        cases hm with
        | swap bp ms dst =>
          simp only [callOf] at h
          split_ifs at h
          · cases h; exact ⟨rfl, rfl, rfl⟩
          · cases h; exact ⟨rfl, rfl, rfl⟩
        | withdrawLiquidity =>
          simp only [callOf] at h
          split_ifs at h
          cases h; rfl
        | _ => cases h
      | provideLiquidity as tol rc =>
        simp only [callOf] at h
        split_ifs at h
        cases h; rfl
      | _ => cases h
    | _ => cases h

end PairSite

/-! ## The value of a share -/

namespace Spec

/-- A share of `q` is worth at least a share of `p`: `p.r0 * p.r1 / p.supply^2 ≤ q.r0 * q.r1 / q.supply^2`, without
division. -/
def Pool.NoLoss (p q : Pool) : Prop := p.r0 * p.r1 * q.supply ^ 2 ≤ q.r0 * q.r1 * p.supply ^ 2

theorem Pool.NoLoss.trans {p q r : Pool} (hq : q.supply ≠ 0) (h1 : p.NoLoss q) (h2 : q.NoLoss r) : p.NoLoss r := by
  unfold Pool.NoLoss at *
  have hpos : 0 < q.supply ^ 2 := Nat.pow_pos (Nat.pos_of_ne_zero hq)
  refine Nat.le_of_mul_le_mul_right ?_ hpos
  calc p.r0 * p.r1 * r.supply ^ 2 * q.supply ^ 2 = (p.r0 * p.r1 * q.supply ^ 2) * r.supply ^ 2 := by ring
    _ ≤ (q.r0 * q.r1 * p.supply ^ 2) * r.supply ^ 2 := Nat.mul_le_mul_right _ h1
    _ = (q.r0 * q.r1 * r.supply ^ 2) * p.supply ^ 2 := by ring
    _ ≤ (r.r0 * r.r1 * q.supply ^ 2) * p.supply ^ 2 := Nat.mul_le_mul_right _ h2
    _ = r.r0 * r.r1 * p.supply ^ 2 * q.supply ^ 2 := by ring

theorem gross_eq (o a x : Nat) : gross o a x = grossOf o a x := by
  have hD : DF = 10 ^ 18 := by norm_num [DF]
  unfold grossOf gross
  rw [hD]

theorem payout_product {o a x : Nat} (ho : o ≠ 0) (hc : o + x ≤ 10 ^ 18) : o * a ≤ (o + x) * (a - payout o a x) := by
  have hD : DF = 10 ^ 18 := by norm_num [DF]
  have := product_ok (o := o) (a := a) (x := x) ho (.inl (by rw [hD]; exact hc))
  unfold payout
  rw [gross_eq]
  exact this

theorem refund_le {r s S : Nat} (hS : S ≠ 0) : refund r s S * S ≤ r * s := by
  unfold refund
  have hp : 0 < S := Nat.pos_of_ne_zero hS
  generalize hD : 10 ^ 18 = D
  have hD' : 0 < D := by rw [← hD]; norm_num
  have a1 : s * D / S * S ≤ s * D := Nat.div_mul_le_self _ _
  have a3 : r * (s * D / S) / D * D ≤ r * (s * D / S) := Nat.div_mul_le_self _ _
  generalize s * D / S = ρ at *
  generalize r * ρ / D = x at *
  have : x * S * D ≤ r * s * D := by
    calc x * S * D = (x * D) * S := by ring
      _ ≤ (r * ρ) * S := Nat.mul_le_mul_right _ a3
      _ = r * (ρ * S) := by ring
      _ ≤ r * (s * D) := Nat.mul_le_mul_left _ a1
      _ = r * s * D := by ring
  exact Nat.le_of_mul_le_mul_right this hD'

private theorem sq_mono {a b c d S T : Nat} (h1 : a * T ≤ c * S) (h2 : b * T ≤ d * S) :
    a * b * T ^ 2 ≤ c * d * S ^ 2 := by
  calc a * b * T ^ 2 = (a * T) * (b * T) := by ring
    _ ≤ (c * S) * (d * S) := Nat.mul_le_mul h1 h2
    _ = c * d * S ^ 2 := by ring

theorem Drift.noLoss {p q : Pool} (h : Drift p q) : p.NoLoss q := by
  unfold Pool.NoLoss
  calc p.r0 * p.r1 * q.supply ^ 2 ≤ q.r0 * q.r1 * q.supply ^ 2 :=
        Nat.mul_le_mul_right _ (Nat.mul_le_mul h.r0 h.r1)
    _ ≤ q.r0 * q.r1 * p.supply ^ 2 := Nat.mul_le_mul_left _ (Nat.pow_le_pow_left h.supply 2)

/-- A swap that is not dust does not lower the product of the reserves. -/
theorem payout_product' {o a x : Nat} (ho : o ≠ 0) (hd : ¬ (gross o a x < 334 ∧ 10 ^ 18 < o + x)) :
    o * a ≤ (o + x) * (a - payout o a x) := by
  by_cases hc : o + x ≤ 10 ^ 18
  · exact payout_product ho hc
  · have hg : 334 ≤ gross o a x := by omega
    rw [gross_eq] at hg
    have := product_ok (o := o) (a := a) (x := x) ho (.inr hg)
    unfold payout
    rw [gross_eq]
    exact this

theorem Path.acts {p q : Pool} {cs : List (Pool × Call)} (h : Path p cs q) : ∀ e ∈ cs, ∃ r, Act e.2 e.1 r := by
  induction h with
  | done => intro e he; cases he
  | call p b q r l rest h1 h2 _ ih =>
    intro e he
    rcases List.mem_cons.mp he with rfl | he
    exacts [⟨q, h2⟩, ih e he]

/-- No granted request except a dust swap lowers the value of a share. -/
theorem Act.noLoss {l : Call} {p q : Pool} (h : Act l p q) (hd : ¬ Dust (p, l)) (hS : p.supply ≠ 0) : p.NoLoss q := by
  unfold Pool.NoLoss
  cases h with
  | swap0 _ x ho h => exact Nat.mul_le_mul_right _ (payout_product' ho hd)
  | swap1 _ x ho h =>
    refine Nat.mul_le_mul_right _ ?_
    have := payout_product' (a := p.r0) ho hd
    rw [Nat.mul_comm p.r0, Nat.mul_comm (p.r0 - _)]
    exact this
  | init _ d0 d1 h0 _ => exact absurd h0 hS
  | deposit _ d0 d1 s _ h0 h1 hs hpos =>
    have e0 : s * p.r0 ≤ d0 * p.supply := by
      rw [hs]; exact (Nat.mul_le_mul_right _ (min_le_left _ _)).trans (Nat.div_mul_le_self _ _)
    have e1 : s * p.r1 ≤ d1 * p.supply := by
      rw [hs]; exact (Nat.mul_le_mul_right _ (min_le_right _ _)).trans (Nat.div_mul_le_self _ _)
    exact sq_mono (by nlinarith) (by nlinarith)
  | withdraw _ s hs hpos h0 h1 =>
    have e0 := refund_le (r := p.r0) (s := s) hS
    have e1 := refund_le (r := p.r1) (s := s) hS
    refine sq_mono ?_ ?_
    · simp only
      rw [Nat.mul_sub, Nat.sub_mul]
      exact Nat.sub_le_sub_left e0 _
    · simp only
      rw [Nat.mul_sub, Nat.sub_mul]
      exact Nat.sub_le_sub_left e1 _

/-- Without LP tokens and without a first deposit there never are any. -/
theorem Path.none {p q : Pool} {cs : List (Pool × Call)} (h : Path p cs q) (hf : ∀ e ∈ cs, ¬ First e)
    (hS : p.supply = 0) : q.supply = 0 := by
  induction h with
  | done _ _ h => have := h.supply; omega
  | call p b q r l rest h1 h2 _ ih =>
    have hb : b.supply = 0 := by have := h1.supply; omega
    refine ih (fun e he => hf e (List.mem_cons_of_mem _ he)) ?_
    have hf := hf (b, l) List.mem_cons_self
    cases h2 with
    | swap0 | swap1 => exact hb
    | init => exact absurd hb hf
    | deposit _ _ _ _ h0 => exact absurd hb h0
    | withdraw _ s hs => simp only; omega

/-- A history of requests that do not lower the value of a share, without first deposits, does not lower it. -/
theorem Path.noLoss_of {p q : Pool} {cs : List (Pool × Call)} (h : Path p cs q)
    (hd : ∀ e ∈ cs, ∀ r, Act e.2 e.1 r → e.1.supply ≠ 0 → e.1.NoLoss r) (hf : ∀ e ∈ cs, ¬ First e) : p.NoLoss q := by
  induction h with
  | done _ _ h => exact h.noLoss
  | call p b q r l rest h1 h2 h3 ih =>
    have hf' : ∀ e ∈ rest, ¬ First e := fun e he => hf e (List.mem_cons_of_mem _ he)
    have ih := ih (fun e he => hd e (List.mem_cons_of_mem _ he)) hf'
    have zero : q.supply = 0 → p.NoLoss r := by
      intro hq
      have := h3.none hf' hq
      simp [Pool.NoLoss, this]
    by_cases hq : q.supply = 0
    · exact zero hq
    by_cases hb : b.supply = 0
    · refine zero ?_
      have hf := hf (b, l) List.mem_cons_self
      cases h2 with
      | swap0 | swap1 => exact hb
      | init => exact absurd hb hf
      | deposit _ _ _ _ h0 => exact absurd hb h0
      | withdraw _ s hs => simp only; omega
    · exact ((h1.noLoss.trans hb (hd _ List.mem_cons_self _ h2 hb))).trans hq ih

/-- A history without dust swaps and without first deposits does not lower the value of a share. -/
theorem Path.noLoss {p q : Pool} {cs : List (Pool × Call)} (h : Path p cs q) (hd : ∀ e ∈ cs, ¬ Dust e)
    (hf : ∀ e ∈ cs, ¬ First e) : p.NoLoss q :=
  h.noLoss_of (fun e he _ ha hS => ha.noLoss (hd e he) hS) hf

/-- Backing of the shares. -/
def Backed (p : Pool) : Prop := p.supply ^ 2 ≤ p.r0 * p.r1

theorem Drift.backed {p q : Pool} (h : Drift p q) (hb : Backed p) : Backed q :=
  ((Nat.pow_le_pow_left h.supply 2).trans hb).trans (Nat.mul_le_mul h.r0 h.r1)

theorem Act.backed_of {l : Call} {p q : Pool} (h : Act l p q) (hd : p.supply ≠ 0 → p.NoLoss q) (hb : Backed p) :
    Backed q := by
  by_cases hS : p.supply = 0
  · unfold Backed at *
    cases h with
    | swap0 => simp [hS]
    | swap1 => simp [hS]
    | init _ d0 d1 _ _ =>
      calc Nat.sqrt (d0 * d1) ^ 2 ≤ d0 * d1 := Nat.sqrt_le' _
        _ ≤ (p.r0 + d0) * (p.r1 + d1) := Nat.mul_le_mul (Nat.le_add_left _ _) (Nat.le_add_left _ _)
    | deposit _ _ _ _ h0 => exact absurd hS h0
    | withdraw s => simp [hS]
  · have hn := hd hS
    unfold Pool.NoLoss at hn
    unfold Backed at *
    have hpos : 0 < p.r0 * p.r1 := lt_of_lt_of_le (Nat.pow_pos (Nat.pos_of_ne_zero hS)) hb
    refine Nat.le_of_mul_le_mul_left ?_ hpos
    calc p.r0 * p.r1 * q.supply ^ 2 ≤ q.r0 * q.r1 * p.supply ^ 2 := hn
      _ ≤ q.r0 * q.r1 * (p.r0 * p.r1) := Nat.mul_le_mul_left _ hb
      _ = p.r0 * p.r1 * (q.r0 * q.r1) := Nat.mul_comm _ _

/-- A history of requests that do not lower the value of a share keeps the shares backed. -/
theorem Path.backed_of {p q : Pool} {cs : List (Pool × Call)} (h : Path p cs q)
    (hd : ∀ e ∈ cs, ∀ r, Act e.2 e.1 r → e.1.supply ≠ 0 → e.1.NoLoss r) (hb : Backed p) : Backed q := by
  induction h with
  | done _ _ h => exact h.backed hb
  | call p b q r l rest h1 h2 _ ih =>
    exact ih (fun e he => hd e (List.mem_cons_of_mem _ he)) (h2.backed_of (hd _ List.mem_cons_self _ h2) (h1.backed hb))

/-- A history without dust swaps keeps the shares backed. -/
theorem Path.backed {p q : Pool} {cs : List (Pool × Call)} (h : Path p cs q) (hd : ∀ e ∈ cs, ¬ Dust e)
    (hb : Backed p) : Backed q :=
  h.backed_of (fun e he _ ha hS => ha.noLoss (hd e he) hS) hb

end Spec
end Halo
