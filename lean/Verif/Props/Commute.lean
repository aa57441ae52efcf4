import Verif.Props.Equal
import Verif.Props.Agent
/-! # C109: trades at different pairs do not disturb each other -/

namespace Halo
open _root_.Halo.Spec

namespace CommuteL

theorem xfer_all {i : AssetInfo} {src dst : Addr} {x : Nat} {v v' : World} (h : Xfer i src dst x v v') (e : AssetInfo) (b : Addr) :
    held v' e b + (if e = i ∧ b = src then x else 0) = held v e b + (if e = i ∧ b = dst then x else 0) := by
  by_cases he : e = i
  · subst he
    have hle := h.le
    simp only [true_and]
    by_cases hsd : src = dst
    · subst hsd
      by_cases hb : b = src
      · subst hb
        have := h.same rfl
        simp only [if_true]; omega
      · have := h.rest b hb hb
        simp only [if_neg hb]; omega
    · obtain ⟨h1, h2⟩ := h.bal hsd
      by_cases hb : b = src
      · subst hb
        simp only [if_true, if_neg hsd]; omega
      · by_cases hb' : b = dst
        · subst hb'
          simp only [if_neg hb, if_true]; omega
        · have := h.rest b hb hb'
          simp only [if_neg hb, if_neg hb']; omega
  · have := h.other e he b
    simp only [he, false_and, if_false]; omega

theorem supply_keep {v v' : World} (h : TokKeep v v') (t : Addr) : supplyAt v' t = supplyAt v t := by
  unfold supplyAt
  rcases h t with e | ⟨adm, st, st', e1, e2, _, e3⟩
  · rw [e]
  · rw [e1, e2]; exact e3

/-- What a swap does to everybody's holdings. -/
def Moves (w w' : World) (S : Addr) (t : Addr) (a : Addr) (x : Nat) (j : AssetInfo) (dst : Addr) (r : Nat) : Prop :=
  ∀ i b, held w' i b + (if i = .token t ∧ b = S then x else 0) + (if i = j ∧ b = a then r else 0) =
    held w i b + (if i = .token t ∧ b = a then x else 0) + (if i = j ∧ b = dst then r else 0)

theorem swap_all {c : Chain} (hc : c.Lawful) {w w' : World} (hw : Reachable c w) {k : PairSite}
    (hk : k.Sound c w) {t : Addr} {j : AssetInfo} (hd : k.Dir (.token t) j) {x : Nat} {adv : Adv} {gas : Nat} {S : Addr}
    (hS : c.IsUser S) {bp ms : Option Nat} {dst : Option Str}
    (h : runTx c adv gas w S (.exec t (.send k.a x (.swap bp ms dst)) []) = .ok w') :
    ∃ r s cm, Pair.computeSwap (held w (.token t) k.a) (held w j k.a) x = .ok (r, s, cm) ∧ TokKeep w w' ∧ x ≤ held w (.token t) S ∧
      Moves w w' S t k.a x j (dst.getD S) r := by
  obtain ⟨n, hr⟩ := runTx_inv h
  have hx := hk.ctx hc
  have hne := hd.ne hx
  have hSa : S ≠ k.a := (addr_facts hc hw hk.pair).2 S hS
  have hSr : c.api.resolve S = .ok S := PairSite.resolve_of_validate hS.2
  obtain ⟨ret, sp, cm, v1, _, hp, hx1, hx2⟩ :=
    (hk.good hc hw).swap_exact' hx (addr_facts hc hw hk.pair).1 hSr hSa hd hr
  rcases hx2 with ⟨rfl, rfl⟩ | ⟨_, hx2⟩
  · refine ⟨0, sp, cm, hp, hx1.keep, hx1.le, ?_⟩
    intro i b
    have := xfer_all hx1 i b
    simp only [ite_self, Nat.add_zero]
    exact this
  · refine ⟨ret, sp, cm, hp, hx1.keep.trans hx2.keep, hx1.le, ?_⟩
    intro i b
    have h1 := xfer_all hx1 i b
    have h2 := xfer_all hx2 i b
    omega

end CommuteL

open CommuteL

/-- **C109.** Two swaps at different pairs, by the same or by different users, one after the other: made in the other order they go
through as well, and leave everybody with the same holdings of every asset. The second trader must not need the proceeds of the first
trade, and neither may pay its proceeds to the other pair. -/
theorem C109_swaps_commute {c : Chain} (hc : c.Lawful) {w w1 w12 : World} (hw : Reachable c w) {k l : PairSite} (hk : k.Sound c w)
    (hl : l.Sound c w) (hkl : k.a ≠ l.a) (hfk : Fits k w) (hfl : Fits l w) {S T t u : Addr} {i j : AssetInfo} (hS : c.IsUser S)
    (hT : c.IsUser T) (hdk : k.Dir (.token t) i) (hdl : l.Dir (.token u) j) {x y : Nat} {bp ms bp' ms' : Option Nat}
    {dst dst' : Option Str} (hdst : dst ≠ some l.a) (hdst' : dst' ≠ some k.a) {adv1 adv2 : Adv} {gas1 gas2 : Nat}
    (h1 : runTx c adv1 gas1 w S (.exec t (.send k.a x (.swap bp ms dst)) []) = .ok w1)
    (h2 : runTx c adv2 gas2 w1 T (.exec u (.send l.a y (.swap bp' ms' dst')) []) = .ok w12)
    (hy : y ≤ held w (.token u) T) (adv3 adv4 : Adv) :
    ∃ gas3 gas4 w2 w21, runTx c adv3 gas3 w T (.exec u (.send l.a y (.swap bp' ms' dst')) []) = .ok w2 ∧
      runTx c adv4 gas4 w2 S (.exec t (.send k.a x (.swap bp ms dst)) []) = .ok w21 ∧ ∀ e b, held w12 e b = held w21 e b := by
  have hw1 : Reachable c w1 := .step _ _ hw (.tx _ _ _ _ _ _ hS h1)
  obtain ⟨r, s, cm, hp, hkeep, hx, hm⟩ := swap_all hc hw hk hdk hS h1
  have hl1 : l.Sound c w1 := ((hl.good hc hw).keep hkeep).sound (hl.ctx hc)
  obtain ⟨r', s', cm', hp', hkeep', hy1, hm'⟩ := swap_all hc hw1 hl1 hdl hT h2
  have hSk : S ≠ k.a := (addr_facts hc hw hk.pair).2 S hS
  have hSl : S ≠ l.a := (addr_facts hc hw hl.pair).2 S hS
  have hTk : T ≠ k.a := (addr_facts hc hw hk.pair).2 T hT
  have hTl : T ≠ l.a := (addr_facts hc hw hl.pair).2 T hT
  have far : dst.getD S ≠ l.a := by
    cases dst with
    | none => exact hSl
    | some d => exact fun e => hdst (congrArg some e)
  have far' : dst'.getD T ≠ k.a := by
    cases dst' with
    | none => exact hTk
    | some d => exact fun e => hdst' (congrArg some e)
  -- the other pair is not touched
  have still : ∀ e, held w1 e l.a = held w e l.a := by
    intro e
    have := hm e l.a
    simp only [Ne.symm hSl, Ne.symm hkl, Ne.symm far, and_false, if_false, Nat.add_zero] at this
    exact this
  have same : SamePool l w1 w := ⟨still _, still _, supply_keep hkeep _⟩
  have hval : ∀ s, dst' = some s → c.api.validate s = .ok s := by
    have := (C56_swap_iff hc hw1 hl1 (same.symm.fits hfl) hT hdl y bp' ms' dst' adv2 (adv2.query 0)).mp ⟨_, _, h2⟩
    exact this.2.2.2.2.1
  have hval' : ∀ s, dst = some s → c.api.validate s = .ok s := by
    have := (C56_swap_iff hc hw hk hfk hS hdk x bp ms dst adv1 (adv1.query 0)).mp ⟨_, _, h1⟩
    exact this.2.2.2.2.1
  obtain ⟨gas3, w2, h3⟩ := (C91_swap hc hw1 hw hl1 hl (same.symm.fits hfl) same hT hT hdl hy1 hy bp' ms' hval hval adv2 adv3).mp
    ⟨_, _, h2⟩
  have hw2 : Reachable c w2 := .step _ _ hw (.tx _ _ _ _ _ _ hT h3)
  obtain ⟨r3, s3, cm3, hp3, hkeep3, _, hm3⟩ := swap_all hc hw hl hdl hT h3
  have hk2 : k.Sound c w2 := ((hk.good hc hw).keep hkeep3).sound (hk.ctx hc)
  have still' : ∀ e, held w2 e k.a = held w e k.a := by
    intro e
    have := hm3 e k.a
    simp only [Ne.symm hTk, hkl, Ne.symm far', and_false, if_false, Nat.add_zero] at this
    exact this
  have same' : SamePool k w w2 := ⟨(still' _).symm, (still' _).symm, (supply_keep hkeep3 _).symm⟩
  have e3 : r3 = r' := by
    rw [still, still, hp3] at hp'
    cases hp'
    rfl
  subst e3
  have hx2 : x ≤ held w2 (.token t) S := by
    have a1 := hm (.token u) T
    have a3 := hm3 (.token t) S
    simp only [hSl, hTk, and_false, if_false, Nat.add_zero] at a1 a3
    by_cases hq : (AssetInfo.token t = .token u ∧ S = T)
    · obtain ⟨q1, rfl⟩ := hq
      have q1' : t = u := by injection q1
      subst q1'
      have hik : AssetInfo.token t ≠ i := hdk.ne (hk.ctx hc)
      simp only [hik, true_and, and_self, if_true, false_and, if_false, Nat.add_zero] at a1 a3
      omega
    · simp only [hq, if_false, Nat.add_zero] at a3
      omega
  obtain ⟨gas4, w21, h4⟩ := (C91_swap hc hw hw2 hk hk2 hfk same' hS hS hdk hx hx2 bp ms hval' hval' adv1 adv4).mp ⟨_, _, h1⟩
  obtain ⟨r4, s4, cm4, hp4, _, _, hm4⟩ := swap_all hc hw2 hk2 hdk hS h4
  have e4 : r4 = r := by
    rw [still', still', hp] at hp4
    cases hp4
    rfl
  subst e4
  refine ⟨gas3, gas4, w2, w21, h3, h4, fun e b => ?_⟩
  have a1 := hm e b
  have a2 := hm' e b
  have a3 := hm3 e b
  have a4 := hm4 e b
  omega

/-! ## Deals of any kind -/

/-- What a user may do at a pair. -/
inductive Deal where
  | swap (t : Addr) (j : AssetInfo) (x : Nat) (beliefPrice maxSpread : Option Nat) (dst : Option Str)
  | withdraw (x : Nat)
  | deposit (assets : Asset × Asset) (tol : Option Nat) (receiver : Option Str) (funds : List Coin)

/-- The message the user signs. -/
def Deal.msg (k : PairSite) : Deal → CosmosMsg
  | .swap t _ x bp ms dst => .exec t (.send k.a x (.swap bp ms dst)) []
  | .withdraw x => .exec k.lt (.send k.a x .withdrawLiquidity) []
  | .deposit assets tol receiver funds => .exec k.a (.provideLiquidity assets tol receiver) funds

/-- A swap is of one of the pair's assets for the other. -/
def Deal.At (k : PairSite) : Deal → Prop
  | .swap t j _ _ _ _ => k.Dir (.token t) j
  | _ => True

/-- Who is named to get the proceeds. -/
def Deal.payee : Deal → Option Str
  | .swap _ _ _ _ _ dst => dst
  | .withdraw _ => none
  | .deposit _ _ receiver _ => receiver

namespace CommuteL

theorem _root_.Halo.PairSite.Sound.mints {c : Chain} (hc : c.Lawful) {w w' : World} (hw : Reachable c w) {k : PairSite} (hk : k.Sound c w)
    (h : MintKeep w w') : k.Sound c w' :=
  ((hk.good hc hw).tokOnly fun b => (h b).imp id fun ⟨adm, st, st', h1, h2, h3⟩ => ⟨adm, st, st', h1, h2, fun _ => h3⟩).sound (hk.ctx hc)

/-- Different pairs have different LP tokens. -/
theorem lt_ne {c : Chain} (hc : c.Lawful) {w : World} (hw : Reachable c w) {k l : PairSite} (hk : k.Sound c w) (hl : l.Sound c w)
    (hkl : k.a ≠ l.a) : k.lt ≠ l.lt := by
  intro e
  obtain ⟨st, h1, h2⟩ := (hk.good hc hw).lp
  obtain ⟨st', h1', h2'⟩ := (hl.good hc hw).lp
  rw [← e, h1] at h1'
  cases h1'
  rw [h2] at h2'
  injection h2' with h2'
  injection h2' with h2'
  exact hkl h2'

theorem deal_keeps {c : Chain} (hc : c.Lawful) {w w' : World} (hw : Reachable c w) {k : PairSite} (hk : k.Sound c w) {S : Addr}
    (hS : c.IsUser S) {d : Deal} (hd : d.At k) {adv : Adv} {gas : Nat} (h : runTx c adv gas w S (d.msg k) = .ok w') : MintKeep w w' := by
  cases d with
  | swap t j x bp ms dst =>
    obtain ⟨_, _, _, _, hkeep, _⟩ := swap_all hc hw hk hd hS h
    exact hkeep.mints
  | withdraw x =>
    obtain ⟨_, _, _, _, _, d⟩ := withdraw_tx hc hw hk hS h
    exact d.keep
  | deposit assets tol receiver funds =>
    obtain ⟨_, _, _, _, _, _, _, _, _, d⟩ := deposit_tx hc hw hk hS h
    exact d.keep

/-- A deal at one pair is not noticed at another. -/
theorem deal_far {c : Chain} (hc : c.Lawful) {w w' : World} (hw : Reachable c w) {k l : PairSite} (hk : k.Sound c w) (hl : l.Sound c w)
    (hkl : k.a ≠ l.a) {S : Addr} (hS : c.IsUser S) {d : Deal} (hd : d.At k) (hp : d.payee ≠ some l.a) {adv : Adv} {gas : Nat}
    (h : runTx c adv gas w S (d.msg k) = .ok w') : SamePool l w w' := by
  have hSl : l.a ≠ S := Ne.symm ((addr_facts hc hw hl.pair).2 S hS)
  have hll : l.lt ≠ k.lt := Ne.symm (lt_ne hc hw hk hl hkl)
  have pay : d.payee.getD S ≠ l.a := by
    cases hq : d.payee with
    | none => exact Ne.symm hSl
    | some r => exact fun e => hp (hq.trans (congrArg some e))
  suffices H : (∀ e, held w' e l.a = held w e l.a) ∧ supplyAt w' l.lt = supplyAt w l.lt from
    ⟨(H.1 _).symm, (H.1 _).symm, H.2.symm⟩
  cases d with
  | swap t j x bp ms dst =>
    obtain ⟨_, _, _, _, hkeep, _, hm⟩ := swap_all hc hw hk hd hS h
    refine ⟨fun e => ?_, supply_keep hkeep _⟩
    have := hm e l.a
    simp only [Deal.payee] at pay
    simp only [hSl, Ne.symm hkl, Ne.symm pay, and_false, if_false, Nat.add_zero] at this
    exact this
  | withdraw x =>
    obtain ⟨_, _, _, _, _, d⟩ := withdraw_tx hc hw hk hS h
    exact ⟨fun e => d.people _ hSl (Ne.symm hkl) e, d.supplies _ hll⟩
  | deposit assets tol receiver funds =>
    obtain ⟨_, _, _, _, _, _, _, _, _, d⟩ := deposit_tx hc hw hk hS h
    refine ⟨fun e => ?_, d.supplies _ hll⟩
    by_cases he : e = .token k.lt
    · subst he
      exact d.lp_rest _ (Ne.symm pay)
    · exact d.people _ hSl (Ne.symm hkl) e he

end CommuteL

/-- **C109.** The same deal, signed by the same user in two situations in which the pair holds the same and has as many LP tokens out,
changes what everybody holds, and every supply, by the same amount. What the user and all others hold, what other pairs hold and what
has happened elsewhere does not matter. -/
theorem C109_same_change {c : Chain} (hc : c.Lawful) {w v w' v' : World} (hw : Reachable c w) (hv : Reachable c v) {k : PairSite}
    (hk : k.Sound c w) (hkv : k.Sound c v) (ha : SamePool k w v) {S : Addr} (hS : c.IsUser S) {d : Deal} (hd : d.At k)
    {adv adv' : Adv} {gas gas' : Nat} (h : runTx c adv gas w S (d.msg k) = .ok w') (h' : runTx c adv' gas' v S (d.msg k) = .ok v') :
    (∀ e b, (held w' e b : Int) - held w e b = held v' e b - held v e b) ∧
      ∀ t, (supplyAt w' t : Int) - supplyAt w t = supplyAt v' t - supplyAt v t := by
  suffices H : (∀ e b, held w' e b + held v e b = held v' e b + held w e b) ∧
      ∀ t, supplyAt w' t + supplyAt v t = supplyAt v' t + supplyAt w t by
    refine ⟨fun e b => ?_, fun t => ?_⟩
    · have := H.1 e b; omega
    · have := H.2 t; omega
  have hSk : S ≠ k.a := (addr_facts hc hw hk.pair).2 S hS
  cases d with
  | swap t j x bp ms dst =>
    obtain ⟨r, s, cm, hp, hkeep, _, hm⟩ := swap_all hc hw hk hd hS h
    obtain ⟨r', s', cm', hp', hkeep', _, hm'⟩ := swap_all hc hv hkv hd hS h'
    obtain ⟨e1, e2⟩ := ha.dir hd
    rw [e1, e2, hp'] at hp
    cases hp
    refine ⟨fun e b => ?_, fun t => ?_⟩
    · have a1 := hm e b
      have a2 := hm' e b
      omega
    · rw [supply_keep hkeep, supply_keep hkeep', Nat.add_comm]
  | withdraw x =>
    obtain ⟨_, _, _, _, _, a⟩ := withdraw_tx hc hw hk hS h
    obtain ⟨_, _, _, _, _, b⟩ := withdraw_tx hc hv hkv hS h'
    rw [ha.reserve0, ha.reserve1, ha.supply] at a
    have p0 := a.pair0
    have p1 := a.pair1
    have u0 := a.user0
    have u1 := a.user1
    have l := a.lp
    have s := a.supply
    have p0' := b.pair0
    have p1' := b.pair1
    have u0' := b.user0
    have u1' := b.user1
    have l' := b.lp
    have s' := b.supply
    refine ⟨fun e z => ?_, fun t => ?_⟩
    · by_cases el : e = .token k.lt
      · subst el
        by_cases ez : z = S
        · subst ez; omega
        · rw [a.lp_rest z ez, b.lp_rest z ez, Nat.add_comm]
      · by_cases ea : z = k.a
        · subst ea
          by_cases e0 : e = k.i0
          · subst e0; omega
          · by_cases e1 : e = k.i1
            · subst e1; omega
            · rw [a.assets e e0 e1 el, b.assets e e0 e1 el, Nat.add_comm]
        · by_cases ez : z = S
          · subst ez
            by_cases e0 : e = k.i0
            · subst e0; omega
            · by_cases e1 : e = k.i1
              · subst e1; omega
              · rw [a.assets e e0 e1 el, b.assets e e0 e1 el, Nat.add_comm]
          · rw [a.people z ez ea, b.people z ez ea, Nat.add_comm]
    · by_cases et : t = k.lt
      · subst et; omega
      · rw [a.supplies t et, b.supplies t et, Nat.add_comm]
  | deposit assets tol receiver funds =>
    obtain ⟨d0, d1, s, hn, _, _, _, _, hs, a⟩ := deposit_tx hc hw hk hS h
    obtain ⟨f0, f1, s', hn', _, _, _, _, hs', b⟩ := deposit_tx hc hv hkv hS h'
    obtain ⟨rfl, rfl⟩ := hn.uniq hk.ne hn'
    rw [ha.reserve0, ha.reserve1, ha.supply, hs'] at hs
    cases hs
    have p0 := a.pair0
    have p1 := a.pair1
    have u0 := a.user0
    have u1 := a.user1
    have l := a.lp
    have s := a.supply
    have p0' := b.pair0
    have p1' := b.pair1
    have u0' := b.user0
    have u1' := b.user1
    have l' := b.lp
    have s' := b.supply
    refine ⟨fun e z => ?_, fun t => ?_⟩
    · by_cases el : e = .token k.lt
      · subst el
        by_cases ez : z = receiver.getD S
        · subst ez; omega
        · rw [a.lp_rest z ez, b.lp_rest z ez, Nat.add_comm]
      · by_cases e0 : e = k.i0
        · subst e0
          by_cases ea : z = k.a
          · subst ea; omega
          · by_cases ez : z = S
            · subst ez; omega
            · rw [a.people z ez ea _ el, b.people z ez ea _ el, Nat.add_comm]
        · by_cases e1 : e = k.i1
          · subst e1
            by_cases ea : z = k.a
            · subst ea; omega
            · by_cases ez : z = S
              · subst ez; omega
              · rw [a.people z ez ea _ el, b.people z ez ea _ el, Nat.add_comm]
          · cases e with
            | token t =>
              have tl : t ≠ k.lt := fun q => el (congrArg _ q)
              rw [a.tokens t e0 e1 tl, b.tokens t e0 e1 tl, Nat.add_comm]
            | native d =>
              obtain ⟨q1, q2⟩ := a.stray d e0 e1
              obtain ⟨q1', q2'⟩ := b.stray d e0 e1
              by_cases ea : z = k.a
              · subst ea; omega
              · by_cases ez : z = S
                · subst ez; omega
                · rw [a.people z ez ea _ el, b.people z ez ea _ el, Nat.add_comm]
    · by_cases et : t = k.lt
      · subst et; omega
      · rw [a.supplies t et, b.supplies t et, Nat.add_comm]

/-- **C109.** Two deals of any kind at different pairs: if they go through in both orders, the order makes no difference to what
anybody holds, nor to any supply. -/
theorem C109_order {c : Chain} (hc : c.Lawful) {w w1 w12 w2 w21 : World} (hw : Reachable c w) {k l : PairSite} (hk : k.Sound c w)
    (hl : l.Sound c w) (hkl : k.a ≠ l.a) {S T : Addr} (hS : c.IsUser S) (hT : c.IsUser T) {d d' : Deal} (hd : d.At k) (hd' : d'.At l)
    (hp : d.payee ≠ some l.a) (hp' : d'.payee ≠ some k.a) {adv1 adv2 adv3 adv4 : Adv} {gas1 gas2 gas3 gas4 : Nat}
    (h1 : runTx c adv1 gas1 w S (d.msg k) = .ok w1) (h2 : runTx c adv2 gas2 w1 T (d'.msg l) = .ok w12)
    (h3 : runTx c adv3 gas3 w T (d'.msg l) = .ok w2) (h4 : runTx c adv4 gas4 w2 S (d.msg k) = .ok w21) :
    (∀ e b, held w12 e b = held w21 e b) ∧ ∀ t, supplyAt w12 t = supplyAt w21 t := by
  have hw1 : Reachable c w1 := .step _ _ hw (.tx _ _ _ _ _ _ hS h1)
  have hw2 : Reachable c w2 := .step _ _ hw (.tx _ _ _ _ _ _ hT h3)
  have hl1 := hl.mints hc hw (deal_keeps hc hw hk hS hd h1)
  have hk2 := hk.mints hc hw (deal_keeps hc hw hl hT hd' h3)
  have a := C109_same_change hc hw hw1 hl hl1 (deal_far hc hw hk hl hkl hS hd hp h1) hT hd' h3 h2
  have b := C109_same_change hc hw hw2 hk hk2 (deal_far hc hw hl hk (Ne.symm hkl) hT hd' hp' h3) hS hd h1 h4
  refine ⟨fun e z => ?_, fun t => ?_⟩
  · have := a.1 e z
    have := b.1 e z
    omega
  · have := a.2 t
    have := b.2 t
    omega

namespace Demo

/-- 1000 A are swapped at one pair and 1813 B at the other, or the other way round. -/
example := C109_swaps_commute lawful deployed_reachable sound_AB sound_BC (by decide) ⟨nofun, nofun⟩ ⟨nofun, nofun⟩ isUser_user isUser_user
  (t := tA) (i := .token tB) (.inl ⟨rfl, rfl⟩) (u := tB) (j := .token tC) (.inl ⟨rfl, rfl⟩) (y := 1813) (dst := none)
  (dst' := none) nofun nofun leg1_run hand2_run (by decide +kernel) idle idle

def out1 : World := worldOf (runTx chain idle 20 deployed user ((Deal.withdraw 500).msg siteAB))
def out12 : World := worldOf (runTx chain idle 20 out1 user ((Deal.swap tB (.token tC) 1000 none none none).msg siteBC))
def out2 : World := worldOf (runTx chain idle 20 deployed user ((Deal.swap tB (.token tC) 1000 none none none).msg siteBC))
def out21 : World := worldOf (runTx chain idle 20 out2 user ((Deal.withdraw 500).msg siteAB))

/-- A withdrawal at one pair and a swap at the other, in both orders. -/
example : (∀ e b, held out12 e b = held out21 e b) ∧ ∀ t, supplyAt out12 t = supplyAt out21 t :=
  C109_order lawful deployed_reachable sound_AB sound_BC (by decide) isUser_user isUser_user (d := .withdraw 500)
    (d' := .swap tB (.token tC) 1000 none none none) trivial (.inl ⟨rfl, rfl⟩) nofun nofun (adv1 := idle) (adv2 := idle) (adv3 := idle)
    (adv4 := idle) (gas1 := 20) (gas2 := 20) (gas3 := 20) (gas4 := 20) (worldOf_eq (by decide +kernel)) (worldOf_eq (by decide +kernel))
    (worldOf_eq (by decide +kernel)) (worldOf_eq (by decide +kernel))

/-- At one and the same pair the order matters: whoever comes first gets more. -/
def early : World := worldOf (runTx chain idle 20 leg1 user (.exec tA (.send pAB 2000 (.swap none none (some user2))) []))
def late : World := worldOf (runTx chain idle 20 swapA2 user (.exec tA (.send pAB 1000 (.swap none none none)) []))

example : held early (.token tB) user2 < held late (.token tB) user2 ∧ held late (.token tB) user < held early (.token tB) user := by
  decide +kernel

/-- A trader who lives on the proceeds of the first trade cannot go first. -/
example : (∃ v, runTx chain idle 20 swapA2 user2 (.exec tB (.send pBC 1000 (.swap none none none)) []) = .ok v) ∧
    ∀ v, runTx chain idle 20 deployed user2 (.exec tB (.send pBC 1000 (.swap none none none)) []) ≠ .ok v :=
  ⟨⟨_, worldOf_eq (by decide +kernel)⟩, fun v h => by
    have : (runTx chain idle 20 deployed user2 (.exec tB (.send pBC 1000 (.swap none none none)) [])).isOk = false := by decide +kernel
    rw [h] at this
    cases this⟩

end Demo
end Halo
