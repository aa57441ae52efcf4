import Verif.Lemmas.PoolL
/-! # Swaps, deposits and withdrawals as whole executions (helper lemmas for C21) -/

namespace Halo
open _root_.Halo.Spec

/-- Running never creates fuel. -/
theorem run_le {c : Chain} {adv : Adv} : ∀ {n n' : Nat} {v v' : World} {fs : List Frame},
    run c adv n v fs = .ok (n', v') → n' ≤ n := by
  intro n
  induction n with
  | zero =>
    intro n' v v' fs h
    cases fs with
    | nil => cases h; exact le_refl _
    | cons => cases h
  | succ n ih =>
    intro n' v v' fs h
    cases fs with
    | nil => cases h; exact le_refl _
    | cons f fs =>
      obtain ⟨m, w1, fs1, he, _, hr⟩ := run_cons_inv h
      cases he
      exact (ih hr).trans (Nat.le_succ _)

/-- A message to a halo token, without funds. -/
theorem tok_call {c : Chain} {adv : Adv} {n : Nat} {v v' : World} {fs : List Frame} {sender t : Addr} {m : ExecMsg}
    (hr : c.api.resolve t = .ok t) {adm : Option Addr} {st : TokenState} (ht : v.contracts t = some ⟨adm, .token st⟩)
    (h : StepI c adv n v (.msg sender (plain (.exec t m []))) v' fs) :
    ∃ st' r, Token.execute c.api v.block st sender m = .ok (st', r) ∧ v' = v.setState t adm (.token st') ∧
      fs = frames t r := by
  unfold plain at h
  generalize hf : (⟨.exec t m [], none⟩ : SubMsg) = sm at h
  cases h with
  | token _ _ _ _ _ me w1 admin s1 s' r hme hmv hrr hc hx =>
    cases hf
    rw [hr] at hme
    cases hme
    rw [ht] at hc
    cases hc
    rw [moveCoins_nil] at hmv
    subst hmv
    exact ⟨s', r, hx, rfl, by simp [replyFrame]⟩
  | pair _ _ _ _ _ me w1 admin s1 s' r hme hmv hrr hc hx | factory _ _ _ _ _ me w1 admin s1 s' r hme hmv hrr hc hx
  | router _ _ _ _ _ me w1 admin s1 s' r hme hmv hrr hc hx | other _ _ _ _ _ me w1 admin ms hme hmv hc =>
    cases hf
    rw [hr] at hme
    cases hme
    rw [ht] at hc
    cases hc
  | bank | inst | migrate | admin => cases hf

theorem tok_exec {c : Chain} {adv : Adv} {n : Nat} {v v' : World} {fs : List Frame} {sender t : Addr} {m : ExecMsg}
    (hr : c.api.resolve t = .ok t) {adm : Option Addr} {st : TokenState} (ht : v.contracts t = some ⟨adm, .token st⟩)
    (h : StepI c adv n v (.msg sender (plain (.exec t m []))) v' fs) :
    ∃ st' r, Token.Eff c.api v.block st sender m st' r ∧ v' = v.setState t adm (.token st') ∧ fs = frames t r := by
  obtain ⟨st', r, hx, h⟩ := tok_call hr ht h
  exact ⟨st', r, Token.execute_inv hx, h⟩

namespace PairSite
variable {c : Chain} {k : PairSite}

/-- Only storage of halo tokens differs, and not the LP token's minter. -/
def TokOnly (k : PairSite) (v v' : World) : Prop :=
  ∀ b, v'.contracts b = v.contracts b ∨ ∃ adm st st', v.contracts b = some ⟨adm, .token st⟩ ∧
    v'.contracts b = some ⟨adm, .token st'⟩ ∧ (b = k.lt → st'.mint = st.mint)

theorem TokOnly.set {v : World} {t : Addr} {adm : Option Addr} {st st' : TokenState}
    (ht : v.contracts t = some ⟨adm, .token st⟩) (hm : t = k.lt → st'.mint = st.mint) :
    k.TokOnly v (v.setState t adm (.token st')) := by
  intro b
  by_cases hb : b = t
  · subst hb
    exact .inr ⟨adm, st, st', ht, setContract_self _ _ _, hm⟩
  · exact .inl (setContract_ne _ _ hb)

theorem TokOnly.honest {v v' : World} (h : k.TokOnly v v') {i : AssetInfo} (hi : Honest v i) : Honest v' i := by
  intro t ht
  obtain ⟨adm, st, hst⟩ := hi t ht
  rcases h t with h1 | ⟨adm', st1, st2, h1, h2, _⟩
  · exact ⟨adm, st, h1.trans hst⟩
  · exact ⟨_, _, h2⟩

theorem Good.tokOnly {v v' : World} (hg : k.Good v) (h : k.TokOnly v v') : k.Good v' := by
  refine ⟨?_, h.honest hg.asset0, h.honest hg.asset1, ?_⟩
  · rcases h k.a with h1 | ⟨_, _, _, h1, _⟩
    · exact ⟨_, h1.trans hg.pair⟩
    · rw [hg.pair] at h1; cases h1
  · obtain ⟨st, hl, hm⟩ := hg.lp
    rcases h k.lt with h1 | ⟨_, st1, st2, h1, h2, h3⟩
    · exact ⟨st, h1.trans hl, hm⟩
    · rw [hl] at h1
      cases h1
      exact ⟨st2, h2, (h3 rfl).trans hm⟩

theorem Good.honest {v : World} (hg : k.Good v) {i : AssetInfo} (hi : i = k.i0 ∨ i = k.i1) : Honest v i := by
  rcases hi with rfl | rfl
  exacts [hg.asset0, hg.asset1]

theorem Ctx.ne_lp (hx : k.Ctx c) {i : AssetInfo} (hi : i = k.i0 ∨ i = k.i1) : i ≠ .token k.lt := by
  rcases hi with rfl | rfl
  exacts [hx.lp0, hx.lp1]

/-- The pair pays out of a reserve: the reserve falls by exactly that amount (or stays, if the pair pays itself). -/
theorem Good.pay {adv : Adv} {n : Nat} {v v' : World} {fs : List Frame} {i : AssetInfo} {x : Nat} {dst : Addr}
    (hg : k.Good v) (hx : k.Ctx c) (hi : i = k.i0 ∨ i = k.i1)
    (h : StepI c adv n v (.msg k.a (plain (({ info := i, amount := x } : Asset).intoMsg dst))) v' fs) :
    fs = [] ∧ k.Good v' ∧ x ≤ held v i k.a ∧ x ≠ 0 ∧
    (∃ y, held v' i k.a = held v i k.a - x + y) ∧
    (∀ j, j ≠ i → held v' j k.a = held v j k.a) ∧ supplyAt v' k.lt = supplyAt v k.lt := by
  cases i with
  | native d =>
    simp only [Asset.intoMsg, plain] at h
    generalize hf : (⟨.bankSend dst [⟨d, x⟩], none⟩ : SubMsg) = sm at h
    cases h with
    | bank sender to_ coins id b w' hne hdst hmv =>
      cases hf
      have hm := moveCoins_inv hmv
      have hpos : x ≠ 0 := by
        simp only [moveCoins, bind_eq_ok, moveCoinsLoop] at hmv
        obtain ⟨_, _, w1, h1, _⟩ := hmv
        exact (moveCoin_inv h1).2.2.2.1
      have hle : x ≤ v.bal d k.a := by
        simp only [moveCoins, bind_eq_ok, moveCoinsLoop] at hmv
        obtain ⟨_, _, w1, h1, _⟩ := hmv
        exact (moveCoin_inv h1).2.2.2.2.1
      refine ⟨rfl, hg.tokOnly (fun b => .inl (congrFun hm.contracts b)), hle, hpos, ?_, ?_,
        supplyAt_congr (congrFun hm.contracts _)⟩
      · simp only [held]
        by_cases he : k.a = b
        · exact ⟨x, by rw [hm.same he]; omega⟩
        · have := hm.src_bal he d
          simp only [coinSum, ↓reduceIte] at this
          exact ⟨0, by omega⟩
      · intro j hj
        refine held_congr (fun d' hd' => ?_) (fun t _ => congrFun hm.contracts t)
        have hdd : d ≠ d' := by rintro rfl; exact hj hd'
        by_cases he : k.a = b
        · exact hm.same he _ _
        · have := hm.src_bal he d'
          simp only [coinSum, hdd, ↓reduceIte] at this
          omega
    | token | pair | factory | router | other | inst | migrate | admin => cases hf
  | token t =>
    simp only [Asset.intoMsg] at h
    obtain ⟨adm, st, hst⟩ := hg.honest hi t rfl
    obtain ⟨st', r, he, rfl, rfl⟩ := tok_exec (hx.resolve_of hi rfl) hst h
    have htl : t ≠ k.lt := by rintro rfl; exact hx.ne_lp hi rfl
    have hta : t ≠ k.a := by rintro rfl; rw [hg.pair] at hst; cases hst
    cases he with
    | transfer _ _ hx0 hv hb hf =>
      have e2 : (v.setState t adm (.token { st with balances := Token.moveBal st.balances k.a dst x })).contracts t =
        some ⟨adm, .token { st with balances := Token.moveBal st.balances k.a dst x }⟩ := setContract_self _ _ _
      refine ⟨rfl, hg.tokOnly (.set hst (fun e => absurd e htl)), by rw [held_token hst]; exact hb, hx0, ?_, ?_,
        supplyAt_congr (setContract_ne _ _ (Ne.symm htl))⟩
      · rw [held_token e2, held_token hst, Token.moveBal_get]
        by_cases hd : k.a = dst
        · subst hd
          exact ⟨x, by simp⟩
        · exact ⟨0, by simp [hd]⟩
      · intro j hj
        refine held_congr (fun _ _ => rfl) (fun t' ht' => setContract_ne _ _ ?_)
        rintro rfl
        exact hj ht'

/-- A message to the pair: it stays as it is and answers with the frames of its response. -/
theorem Good.exec {adv : Adv} {n : Nat} {v v' : World} {fs : List Frame} {sender : Addr} {target : Str} {m : ExecMsg}
    {funds : List Coin} {id : Option Nat} (hg : k.Good v) (hr : c.api.resolve target = .ok k.a)
    (h : StepI c adv n v (.msg sender ⟨.exec target m funds, id⟩) v' fs) :
    ∃ v1 s' r, moveCoins v sender k.a funds = .ok v1 ∧ m.inRange = true ∧
      Pair.execute c.api (querier c (adv.query n) v1) k.a k.s sender funds m = .ok (s', r) ∧
      v' = v1.setState k.a hg.adm (.pair s') ∧ fs = frames k.a r ++ replyFrame sender id none := by
  generalize hf : (⟨.exec target m funds, id⟩ : SubMsg) = sm at h
  cases h with
  | pair _ _ _ _ _ me w1 admin s1 s' r hme hmv hrr hc hx =>
    cases hf
    rw [hr] at hme
    cases hme
    rw [hg.pair] at hc
    cases hc
    exact ⟨w1, s', r, hmv, hrr, hx, rfl, rfl⟩
  | token _ _ _ _ _ me w1 admin s1 s' r hme hmv hrr hc hx | factory _ _ _ _ _ me w1 admin s1 s' r hme hmv hrr hc hx
  | router _ _ _ _ _ me w1 admin s1 s' r hme hmv hrr hc hx | other _ _ _ _ _ me w1 admin ms hme hmv hc =>
    cases hf
    rw [hr] at hme
    cases hme
    rw [hg.pair] at hc
    cases hc
  | bank | inst | migrate | admin => cases hf

theorem setState_self_eq {v : World} {a : Addr} {adm : Option Addr} {s : CState}
    (h : v.contracts a = some ⟨adm, s⟩) : v.setState a adm s = v := by
  cases v
  simp only [World.setState, World.setContract, World.mk.injEq, true_and, and_true]
  funext b
  by_cases hb : b = a
  · subst hb; simp only [↓reduceIte]; exact h.symm
  · simp [hb]

theorem Good.setState_adm {v v1 : World} (hg : k.Good v) (e : v1.contracts = v.contracts) :
    v1.setState k.a hg.adm (.pair k.s) = v1 := setState_self_eq (by rw [e]; exact hg.pair)

/-- Reserve queries of the pair. -/
theorem Good.pools {q : Querier} {v : World} {p0 p1 : Asset} (hg : k.Good v) (hx : k.Ctx c)
    (h : k.s.queryPools (querier c q v) c.api k.a = .ok (p0, p1)) :
    p0.info = k.i0 ∧ p1.info = k.i1 ∧ p0.amount = held v k.i0 k.a ∧ p1.amount = held v k.i1 k.a ∧
      p0.amount < B128 ∧ p1.amount < B128 := by
  obtain ⟨h1, h2, h3, h4⟩ := queryPools_eq_ok.mp h
  simp only at h1 h2 h3 h4
  rw [hx.info0] at h1
  rw [hx.info1] at h2
  have e0 : p0.info = k.i0 := (Except.ok.inj h1).symm
  have e1 : p1.info = k.i1 := (Except.ok.inj h2).symm
  rw [e0] at h3
  rw [e1] at h4
  obtain ⟨a1, a2⟩ := queryPool_held hg.asset0 h3
  obtain ⟨b1, b2⟩ := queryPool_held hg.asset1 h4
  exact ⟨e0, e1, a1, b1, a2, b2⟩

theorem computeSwap_payout {o a x r s cm : Nat} (ho : o < B128) (ha : a < B128) (hx : x < B128)
    (h : Pair.computeSwap o a x = .ok (r, s, cm)) : o ≠ 0 ∧ r = payout o a x ∧ Priceable o a x := by
  obtain ⟨h1, g1, g2, g3, g4, h2, h3, _⟩ := (computeSwap_ok_iff ho ha hx).mp h
  have hD : DF = 10 ^ 18 := by norm_num [DF]
  have e1 : grossOf o a x = gross o a x := by unfold grossOf gross; rw [hD]
  have e2 : idealOf o a x = spot o a x := by unfold idealOf spot; rw [hD]
  rw [hD] at g1 g2
  rw [e1, e2] at g3 g4
  refine ⟨h1, ?_, g1, g2, g3, g4⟩
  rw [h3, h2, e1]
  rfl

/-- Running the frames of a swap's response. -/
theorem Good.pay_run {adv : Adv} {n n' : Nat} {v v' : World} {i : AssetInfo} {x : Nat} {dst : Addr} (hg : k.Good v)
    (hx : k.Ctx c) (hi : i = k.i0 ∨ i = k.i1)
    (h : run c adv n v [.msg k.a (plain (({ info := i, amount := x } : Asset).intoMsg dst))] = .ok (n', v')) :
    k.Good v' ∧ x ≤ held v i k.a ∧ x ≠ 0 ∧ (∃ y, held v' i k.a = held v i k.a - x + y) ∧
    (∀ j, j ≠ i → held v' j k.a = held v j k.a) ∧ supplyAt v' k.lt = supplyAt v k.lt ∧
    k.calls c (trace c adv n v [.msg k.a (plain (({ info := i, amount := x } : Asset).intoMsg dst))]) = [] := by
  obtain ⟨m, v1, fs1, rfl, hs, hr⟩ := run_cons_inv h
  obtain ⟨rfl, g, e1, e2, e3, e4, e5⟩ := hg.pay hx hi (step_inv hs)
  simp only [List.nil_append, run_nil, Except.ok.injEq, Prod.mk.injEq] at hr
  obtain ⟨_, rfl⟩ := hr
  refine ⟨g, e1, e2, e3, e4, e5, ?_⟩
  rw [trace_cons hs, calls_none, List.nil_append, trace_nil]
  · rfl
  · cases i <;> rfl

/-- A swap hook call on behalf of an asset token, as a whole. `p` is the pool before the offer arrived. -/
theorem Good.swap {adv : Adv} {n m n' : Nat} {v v1 v' : World} {fs : List Frame} {t : Addr} {sender : Str} {x : Nat}
    {bp ms : Option Nat} {dst : Option Str} (hg : k.Good v) (hx : k.Ctx c) {p : Pool}
    (hp0 : k.i0 = .token t → k.pool v = ⟨p.r0 + x, p.r1, p.supply⟩)
    (hp1 : k.i1 = .token t → k.pool v = ⟨p.r0, p.r1 + x, p.supply⟩) (hra : c.api.resolve k.a = .ok k.a)
    (h : StepI c adv n v (.msg t (plain (.exec k.a (.receive sender x (.swap bp ms dst)) []))) v1 fs)
    (hr : run c adv m v1 fs = .ok (n', v')) :
    k.Good v' ∧ k.calls c (trace c adv m v1 fs) = [] ∧
    ∃ l q, k.callOf c (v, .msg t (plain (.exec k.a (.receive sender x (.swap bp ms dst)) []))) = some (p, l) ∧
      Act l p q ∧ Drift q (k.pool v') := by
  obtain ⟨w1, s', r, hmv, hir, hex, rfl, rfl⟩ := hg.exec hra h
  rw [moveCoins_nil, eq_comm] at hmv
  subst hmv
  simp only [replyFrame, List.append_nil] at hr
  have hxb : x < B128 := by
    simp only [ExecMsg.inRange, Bool.and_eq_true, decide_eq_true_eq] at hir
    exact hir.1
  obtain ⟨rfl, _, o, a, od, ad, ret, sp, cm, hs⟩ := Pair.receive_swap_inv (funds := []) hex
  rw [setState_self_eq hg.pair] at hr
  have hio : o.info = .token t := hs.h_info.symm
  have hle : x ≤ o.amount := hs.h_le
  have hpr : Pair.computeSwap (o.amount - x) a.amount x = .ok (ret, sp, cm) := hs.h_price
  have hfr : frames k.a r = if ret ≠ 0 then
      [.msg k.a (plain (({ info := a.info, amount := ret } : Asset).intoMsg (dst.getD sender)))] else [] := by
    rw [hs.h_resp]
    by_cases h0 : ret ≠ 0 <;> simp [frames, h0]
  rw [hfr] at hr
  rw [hfr, replyFrame, List.append_nil]
  have hto : k.toPair c k.a = true := by simp [toPair, hra]
  rw [setState_self_eq hg.pair]
  rcases hs.h_pools with ⟨hq, _⟩ | ⟨hq, _⟩
  · obtain ⟨e0, e1, a0, a1, b0, b1⟩ := hg.pools hx hq
    have hpl := hp0 (e0.symm.trans hio)
    have hi0 := hpl
    simp only [pool, Pool.mk.injEq] at hi0
    have hc0 : k.callOf c (v, .msg t (plain (.exec k.a (.receive sender x (.swap bp ms dst)) []))) =
        some (p, .swap0 x) := by
      simp [callOf, plain, hto, hpl, e0.symm.trans hio]
    obtain ⟨ho, hpay, hpz⟩ := computeSwap_payout (by omega) b1 hxb hpr
    have q0 : o.amount - x = p.r0 := by omega
    have q1 : a.amount = p.r1 := by omega
    rw [q0, q1] at hpay hpz
    rw [q0] at ho
    by_cases hr0 : ret = 0
    · simp only [hr0, ne_eq, not_true_eq_false, ↓reduceIte, run_nil, Except.ok.injEq, Prod.mk.injEq] at hr
      obtain ⟨_, rfl⟩ := hr
      refine ⟨hg, by simp [hr0, trace_nil, calls], _, _, hc0, .swap0 p x ho (by omega) hpz, ?_⟩
      rw [← hpay, hr0]
      simp only [pool, hi0]
      exact Drift.refl _
    · simp only [ne_eq, hr0, not_false_eq_true, ↓reduceIte] at hr
      rw [e1] at hr
      obtain ⟨g', l1, _, ⟨y, l3⟩, l4, l5, l6⟩ := hg.pay_run hx (.inr rfl) hr
      refine ⟨g', by simpa [hr0, e1] using l6, _, _, hc0, .swap0 p x ho (by omega) hpz, ?_⟩
      have l4' := l4 k.i0 hx.ne
      rw [← hpay]
      constructor <;> simp only [pool] <;> omega
  · obtain ⟨e0, e1, a0, a1, b0, b1⟩ := hg.pools hx hq
    have hpl := hp1 (e1.symm.trans hio)
    have hi0 := hpl
    simp only [pool, Pool.mk.injEq] at hi0
    have hc0 : k.callOf c (v, .msg t (plain (.exec k.a (.receive sender x (.swap bp ms dst)) []))) =
        some (p, .swap1 x) := by
      have hn : k.i0 ≠ .token t := fun h => hx.ne (h.trans (e1.symm.trans hio).symm)
      simp [callOf, plain, hto, hpl, hn, e1.symm.trans hio]
    obtain ⟨ho, hpay, hpz⟩ := computeSwap_payout (by omega) b0 hxb hpr
    have q0 : o.amount - x = p.r1 := by omega
    have q1 : a.amount = p.r0 := by omega
    rw [q0, q1] at hpay hpz
    rw [q0] at ho
    by_cases hr0 : ret = 0
    · simp only [hr0, ne_eq, not_true_eq_false, ↓reduceIte, run_nil, Except.ok.injEq, Prod.mk.injEq] at hr
      obtain ⟨_, rfl⟩ := hr
      refine ⟨hg, by simp [hr0, trace_nil, calls], _, _, hc0, .swap1 p x ho (by omega) hpz, ?_⟩
      rw [← hpay, hr0]
      simp only [pool, hi0]
      exact Drift.refl _
    · simp only [ne_eq, hr0, not_false_eq_true, ↓reduceIte] at hr
      rw [e0] at hr
      obtain ⟨g', l1, _, ⟨y, l3⟩, l4, l5, l6⟩ := hg.pay_run hx (.inl rfl) hr
      refine ⟨g', by simpa [hr0, e0] using l6, _, _, hc0, .swap1 p x ho (by omega) hpz, ?_⟩
      have l4' := l4 k.i1 (Ne.symm hx.ne)
      rw [← hpay]
      constructor <;> simp only [pool] <;> omega

/-- A withdrawal hook call on behalf of the LP token, as a whole. -/
theorem Good.withdraw {adv : Adv} {n m n' : Nat} {v v1 v' : World} {fs : List Frame} {t : Addr} {sender : Str} {x : Nat}
    (hg : k.Good v) (hx : k.Ctx c) (hra : c.api.resolve k.a = .ok k.a)
    (h : StepI c adv n v (.msg t (plain (.exec k.a (.receive sender x .withdrawLiquidity) []))) v1 fs)
    (hr : run c adv m v1 fs = .ok (n', v')) :
    k.Good v' ∧ k.calls c (trace c adv m v1 fs) = [] ∧ ∃ q, Act (.withdraw x) (k.pool v) q ∧ Drift q (k.pool v') := by
  obtain ⟨w1, s', r, hmv, hir, hex, rfl, rfl⟩ := hg.exec hra h
  rw [moveCoins_nil, eq_comm] at hmv
  subst hmv
  simp only [replyFrame, List.append_nil] at hr
  obtain ⟨rfl, _, _, p0, p1, lt, ti, ratio, r0, r1, hs⟩ := Pair.receive_withdraw_inv (funds := []) hex
  rw [setState_self_eq hg.pair] at hr
  have hlt := hs.h_lt
  rw [hx.lp] at hlt
  cases hlt
  obtain ⟨e0, e1, a0, a1, _, _⟩ := hg.pools hx hs.h_pools
  obtain ⟨st, hl, hmint⟩ := hg.lp
  have hS := tokenInfo_supply hx.resolveLp hl hs.h_supply
  have hfr : frames k.a r = [.msg k.a (plain (({ info := p0.info, amount := r0 } : Asset).intoMsg sender)),
      .msg k.a (plain (({ info := p1.info, amount := r1 } : Asset).intoMsg sender)),
      .msg k.a (plain (.exec k.lt (.burn x) []))] := by rw [hs.h_resp]; rfl
  rw [hfr, e0, e1] at hr
  rw [hfr, e0, e1, replyFrame, List.append_nil, setState_self_eq hg.pair]
  have s1 := run_append (fs := [_]) (gs := [_, _]) |>.mp hr
  obtain ⟨m1, w1, hr1, hr2⟩ := s1
  obtain ⟨m2, w2, hr2, hr3⟩ := run_append (fs := [_]) (gs := [_]) |>.mp hr2
  obtain ⟨g1, l1, nz0, ⟨y0, l3⟩, l4, l5, l6⟩ := hg.pay_run hx (.inl rfl) hr1
  obtain ⟨g2, j1, nz1, ⟨y1, j3⟩, j4, j5, j6⟩ := g1.pay_run hx (.inr rfl) hr2
  rw [show ∀ a b d : Frame, [a, b, d] = [a] ++ ([b] ++ [d]) from fun _ _ _ => rfl, trace_append hr1,
    trace_append hr2, calls_append, calls_append, l6, j6]
  obtain ⟨m3, w3, fs3, rfl, hs3, hr3⟩ := run_cons_inv hr3
  obtain ⟨st2, hl2, hmint2⟩ := g2.lp
  obtain ⟨st3, r3, he, rfl, rfl⟩ := tok_exec hx.resolveLp hl2 (step_inv hs3)
  cases he with
  | burn _ hx0 hb hsup =>
    simp only [frames, List.map_nil, List.append_nil, run_nil, Except.ok.injEq, Prod.mk.injEq] at hr3
    obtain ⟨_, rfl⟩ := hr3
    have g3 := g2.tokOnly (.set hl2 (st' := { st2 with balances := st2.balances.set k.a (st2.balances.getD0 k.a - x), totalSupply := st2.totalSupply - x }) (fun _ => rfl))
    refine ⟨g3, ?_, ?_⟩
    · rw [trace_cons hs3, calls_none rfl]
      simp [frames, trace_nil, calls]
    have hk : ∀ i, i = k.i0 ∨ i = k.i1 → ∀ st' : TokenState,
        held (w2.setState k.lt none (.token st')) i k.a = held w2 i k.a := by
      intro i hi st'
      refine held_congr (fun _ _ => rfl) (fun t ht => setContract_ne _ _ ?_)
      rintro rfl
      exact hx.ne_lp hi ht
    have d1 := j4 k.i0 hx.ne
    have d2 := l4 k.i1 (Ne.symm hx.ne)
    have hratio := hs.h_ratio
    have hr0 := hs.h_r0
    have hr1 := hs.h_r1
    simp only [Uint128.decFromRatio_eq_ok] at hratio
    simp only [Uint128.mulDecimal_eq_ok] at hr0 hr1
    have hD : DF = 10 ^ 18 := by norm_num [DF]
    rw [hD] at hratio hr0 hr1
    rw [hS] at hratio
    have f0 : r0 = refund (k.pool v).r0 x (k.pool v).supply := by
      rw [hr0.2, hratio.2.2, a0]; rfl
    have f1 : r1 = refund (k.pool v).r1 x (k.pool v).supply := by
      rw [hr1.2, hratio.2.2, a1]; rfl
    have hsup' : x ≤ (k.pool v).supply := by
      have : supplyAt w2 k.lt = st2.totalSupply := supplyAt_token hl2
      simp only [pool]
      omega
    refine ⟨_, .withdraw (k.pool v) x hsup' hx0 (by rw [← f0]; exact l1)
      (by rw [← f1]; rw [d2] at j1; exact j1) (by rw [← f0]; exact nz0) (by rw [← f1]; exact nz1), ?_⟩
    rw [← f0, ← f1]
    have hsl : supplyAt (w2.setState k.lt none (.token { st2 with
        balances := st2.balances.set k.a (st2.balances.getD0 k.a - x), totalSupply := st2.totalSupply - x })) k.lt =
        (k.pool v).supply - x := by
      refine (supplyAt_token (setContract_self _ _ _)).trans ?_
      have : supplyAt w2 k.lt = st2.totalSupply := supplyAt_token hl2
      simp only [pool]
      omega
    have h0' : held w2 k.i0 k.a = (k.pool v).r0 - r0 + y0 := by rw [d1, l3]; rfl
    have h1' : held w2 k.i1 k.a = (k.pool v).r1 - r1 + y1 := by rw [j3, d2]; rfl
    rw [show k.pool (w2.setState k.lt none (.token { st2 with
        balances := st2.balances.set k.a (st2.balances.getD0 k.a - x), totalSupply := st2.totalSupply - x })) =
        ⟨(k.pool v).r0 - r0 + y0, (k.pool v).r1 - r1 + y1, (k.pool v).supply - x⟩ from by
      rw [← h0', ← h1', ← hsl, ← hk _ (.inl rfl), ← hk _ (.inr rfl)]; rfl]
    exact ⟨Nat.le_add_right _ _, Nat.le_add_right _ _, le_refl _⟩

/-- The coins sent along with a deposit are exactly the declared native amounts. -/
theorem coinSum_of_sent {x : Asset} {funds : List Coin} {d : Denom} (hn : (funds.map Coin.denom).Nodup)
    (hd : x.info = .native d) (h : x.assertSent funds = .ok ()) : coinSum d funds = x.amount := by
  unfold Asset.assertSent at h
  rw [hd] at h
  simp only at h
  induction funds with
  | nil => simp only [List.find?_nil, require_eq_ok] at h; simp [coinSum, h]
  | cons f t ih =>
    simp only [List.map_cons, List.nodup_cons] at hn
    by_cases hf : f.denom = d
    · simp only [List.find?_cons, hf, decide_true, require_eq_ok] at h
      have : ∀ l : List Coin, d ∉ l.map Coin.denom → coinSum d l = 0 := by
        intro l
        induction l with
        | nil => intro _; rfl
        | cons g t ih =>
          intro hl
          simp only [List.map_cons, List.mem_cons, not_or] at hl
          simp [coinSum, Ne.symm hl.1, ih hl.2]
      have h0 := this t (by rw [← hf]; exact hn.1)
      simp [coinSum, hf, h0, h]
    · simp only [List.find?_cons, hf, decide_false] at h
      simp only [coinSum, hf, ↓reduceIte, Nat.zero_add]
      exact ih hn.2 h

/-- Collecting one side of a deposit. -/
theorem Good.collect {adv : Adv} {n n' : Nat} {v v' : World} {i : AssetInfo} {d : Nat} {sender : Addr} (hg : k.Good v)
    (hx : k.Ctx c) (hi : i = k.i0 ∨ i = k.i1) (hne : sender ≠ k.a)
    (h : run c adv n v ((Pair.collectMsg k.a sender i d).map (fun m => .msg k.a (plain m))) = .ok (n', v')) :
    k.Good v' ∧ held v' i k.a = held v i k.a + (if i.isNative then 0 else d) ∧
    (∀ j, j ≠ i → held v' j k.a = held v j k.a) ∧ supplyAt v' k.lt = supplyAt v k.lt ∧
    k.calls c (trace c adv n v ((Pair.collectMsg k.a sender i d).map (fun m => .msg k.a (plain m)))) = [] := by
  cases i with
  | native dn =>
    simp only [Pair.collectMsg, List.map_nil, run_nil, Except.ok.injEq, Prod.mk.injEq] at h
    obtain ⟨_, rfl⟩ := h
    exact ⟨hg, by simp [AssetInfo.isNative], fun _ _ => rfl, rfl, by simp [Pair.collectMsg, trace_nil, calls]⟩
  | token t =>
    simp only [Pair.collectMsg, List.map_cons, List.map_nil] at h ⊢
    obtain ⟨m, v1, fs1, rfl, hs, hr⟩ := run_cons_inv h
    obtain ⟨adm, st, hst⟩ := hg.honest hi t rfl
    obtain ⟨st', r, he, rfl, rfl⟩ := tok_exec (hx.resolve_of hi rfl) hst (step_inv hs)
    have htl : t ≠ k.lt := by rintro rfl; exact hx.ne_lp hi rfl
    cases he with
    | transferFrom _ _ _ al hv ho ha hex hle hb hf =>
      simp only [frames, List.map_nil, List.append_nil, run_nil, Except.ok.injEq, Prod.mk.injEq] at hr
      obtain ⟨_, rfl⟩ := hr
      refine ⟨hg.tokOnly (.set hst (fun e => absurd e htl)), ?_, ?_, supplyAt_congr (setContract_ne _ _ (Ne.symm htl)), ?_⟩
      · refine (held_token (setContract_self _ _ _) _).trans ?_
        rw [held_token hst, Token.moveBal_get]
        simp [AssetInfo.isNative, Ne.symm hne]
      · intro j hj
        refine held_congr (fun _ _ => rfl) (fun t' ht' => setContract_ne _ _ ?_)
        rintro rfl
        exact hj ht'
      · rw [trace_cons hs, calls_none rfl]
        simp [frames, trace_nil, calls]

theorem named_eq {assets : Asset × Asset} {i : AssetInfo} {d : Nat} (h : Pair.depositFor assets i = .ok d) :
    named i assets = d := by
  rcases Pair.depositFor_eq_ok.mp h with ⟨h1, rfl⟩ | ⟨h0, _, rfl⟩
  · simp [named, h1]
  · simp [named, h0]

/-- A deposit, as a whole. -/
theorem Good.provide {adv : Adv} {n m n' : Nat} {v w1 v' : World} {sender : Addr} {funds : List Coin}
    {assets : Asset × Asset} {tol : Option Nat} {receiver : Option Str} {s' : Pair.State} {r : Response}
    (hg : k.Good v) (hx : k.Ctx c) (hne : sender ≠ k.a) (hmv : moveCoins v sender k.a funds = .ok w1)
    (h : Pair.provideLiquidity c.api (querier c (adv.query n) w1) k.a k.s sender funds assets tol receiver = .ok (s', r))
    (hr : run c adv m (w1.setState k.a hg.adm (.pair s')) (frames k.a r) = .ok (n', v')) :
    k.Good v' ∧ k.calls c (trace c adv m (w1.setState k.a hg.adm (.pair s')) (frames k.a r)) = [] ∧
    Act (.deposit (named k.i0 assets) (named k.i1 assets)) (k.pool v) (k.pool v') := by
  have hm := moveCoins_inv hmv
  have hnd : (funds.map Coin.denom).Nodup := by
    unfold moveCoins at hmv
    simp only [bind_eq_ok, require_eq_ok] at hmv
    obtain ⟨_, h1, _⟩ := hmv
    simpa using h1
  have hg1 : k.Good w1 := hg.tokOnly (fun b => .inl (congrFun hm.contracts b))
  obtain ⟨rfl, p0, p1, d0, d1, lt, ti, share, hs⟩ := Pair.provide_inv h
  rw [hg.setState_adm hm.contracts] at hr
  have hlt := hs.h_lt
  rw [hx.lp] at hlt
  cases hlt
  obtain ⟨e0, e1, a0, a1, _, _⟩ := hg1.pools hx hs.h_pools
  obtain ⟨st, hl, hmint⟩ := hg1.lp
  have hS := tokenInfo_supply hx.resolveLp hl hs.h_supply
  have hS' : supplyAt w1 k.lt = supplyAt v k.lt := supplyAt_congr (congrFun hm.contracts _)
  -- the native part has arrived already
  have arrived : ∀ i d, Pair.depositFor assets i = .ok d →
      held w1 i k.a = held v i k.a + (if i.isNative then d else 0) := by
    intro i d hd
    cases i with
    | token t =>
      simp only [AssetInfo.isNative, Bool.false_eq_true, ↓reduceIte, Nat.add_zero]
      exact held_congr (fun _ h => by cases h) (fun t _ => congrFun hm.contracts t)
    | native dn =>
      have : coinSum dn funds = d := by
        rcases Pair.depositFor_eq_ok.mp hd with ⟨h1, rfl⟩ | ⟨_, h1, rfl⟩
        · exact coinSum_of_sent hnd h1 hs.h_sent0
        · exact coinSum_of_sent hnd h1 hs.h_sent1
      simp only [held, AssetInfo.isNative, ↓reduceIte]
      rw [hm.dst_bal hne, this]
  have q0 := arrived _ _ hs.h_d0
  have q1 := arrived _ _ hs.h_d1
  have prior : ∀ (p : Asset) d, p.amount = held v p.info k.a + (if p.info.isNative then d else 0) →
      Pair.priorPool p d = held v p.info k.a := by
    intro p d hp
    unfold Pair.priorPool
    cases hi : p.info with
    | token t => rw [hi] at hp; simpa [AssetInfo.isNative] using hp
    | native dn => rw [hi] at hp; simp only [AssetInfo.isNative, ↓reduceIte] at hp ⊢; omega
  have t0 := prior p0 d0 (by rw [← q0, e0, a0])
  have t1 := prior p1 d1 (by rw [← q1, e1, a1])
  rw [e0] at t0
  rw [e1] at t1
  have hshare := hs.h_share
  rw [t0, t1, hS, hS'] at hshare
  have hfr : frames k.a r = (Pair.collectMsg k.a sender k.i0 d0).map (fun m => .msg k.a (plain m)) ++
      ((Pair.collectMsg k.a sender k.i1 d1).map (fun m => .msg k.a (plain m)) ++
        [.msg k.a (plain (.exec k.lt (.mint (receiver.getD sender) share) []))]) := by
    rw [hs.h_resp, e0, e1]
    simp [frames, List.map_append, Function.comp_def]
  rw [hfr] at hr
  rw [hfr, hg.setState_adm hm.contracts]
  have hd0 := hs.h_d0
  have hd1 := hs.h_d1
  rw [e0] at hd0
  rw [e1] at hd1
  rw [named_eq hd0, named_eq hd1]
  obtain ⟨m1, v1, hr1, hr2⟩ := run_append.mp hr
  obtain ⟨m2, v2, hr2, hr3⟩ := run_append.mp hr2
  obtain ⟨g1, l1, l2, l3, l4⟩ := hg1.collect hx (.inl rfl) hne hr1
  obtain ⟨g2, j1, j2, j3, j4⟩ := g1.collect hx (.inr rfl) hne hr2
  rw [trace_append hr1, trace_append hr2, calls_append, calls_append, l4, j4]
  obtain ⟨m3, v3, fs3, rfl, hs3, hr3⟩ := run_cons_inv hr3
  obtain ⟨st2, hl2, hmint2⟩ := g2.lp
  obtain ⟨st3, r3, he, rfl, rfl⟩ := tok_exec hx.resolveLp hl2 (step_inv hs3)
  cases he with
  | mint _ _ md hx0 hv hmd hsd hf hcap hb =>
    simp only [frames, List.map_nil, List.append_nil, run_nil, Except.ok.injEq, Prod.mk.injEq] at hr3
    obtain ⟨_, rfl⟩ := hr3
    have g3 := g2.tokOnly (.set hl2 (st' := { st2 with
      balances := st2.balances.set (receiver.getD sender) (st2.balances.getD0 (receiver.getD sender) + share),
      totalSupply := st2.totalSupply + share }) (fun _ => rfl))
    refine ⟨g3, ?_, ?_⟩
    · rw [trace_cons hs3, calls_none rfl]
      simp [frames, trace_nil, calls]
    have hk : ∀ i, i = k.i0 ∨ i = k.i1 → ∀ st' : TokenState,
        held (v2.setState k.lt none (.token st')) i k.a = held v2 i k.a := by
      intro i hi st'
      refine held_congr (fun _ _ => rfl) (fun t ht => setContract_ne _ _ ?_)
      rintro rfl
      exact hx.ne_lp hi ht
    have z0 : held v2 k.i0 k.a = held v k.i0 k.a + d0 := by
      have := j2 k.i0 hx.ne
      rw [this, l1]
      rw [e0] at q0
      rw [q0]
      split <;> omega
    have z1 : held v2 k.i1 k.a = held v k.i1 k.a + d1 := by
      rw [j1, l2 k.i1 (Ne.symm hx.ne)]
      rw [e1] at q1
      rw [q1]
      split <;> omega
    have zs : st2.totalSupply = supplyAt v k.lt := by
      rw [← supplyAt_token hl2]; omega
    have fin : k.pool (v2.setState k.lt none (.token { st2 with
        balances := st2.balances.set (receiver.getD sender) (st2.balances.getD0 (receiver.getD sender) + share),
        totalSupply := st2.totalSupply + share })) =
        ⟨(k.pool v).r0 + d0, (k.pool v).r1 + d1, (k.pool v).supply + share⟩ := by
      simp only [pool, hk _ (.inl rfl), hk _ (.inr rfl), z0, z1, Pool.mk.injEq, true_and]
      refine (supplyAt_token (setContract_self _ _ _)).trans ?_
      simp only [zs]
    rw [fin]
    unfold Pair.shareFor at hshare
    by_cases h0 : supplyAt v k.lt = 0
    · simp only [h0, ↓reduceIte, bind_eq_ok, require_eq_ok, Uint128.mulChk_eq_ok, pure_eq_ok, Uint128.isqrt] at hshare
      obtain ⟨_, _, _, _, _, ⟨hm, rfl⟩, rfl⟩ := hshare
      have := Act.init (k.pool v) d0 d1 h0 hs.h_nonzero (by norm_num [B128] at hm ⊢; exact hm)
      rw [show (k.pool v).supply = 0 from h0, Nat.zero_add]
      exact this
    · simp only [h0, ↓reduceIte, bind_eq_ok, Uint128.multiplyRatio_eq_ok, pure_eq_ok] at hshare
      obtain ⟨_, ⟨n0, _, rfl⟩, _, ⟨n1, _, rfl⟩, rfl⟩ := hshare
      exact Act.deposit (k.pool v) d0 d1 _ h0 n0 n1 rfl hs.h_nonzero

end PairSite
end Halo
