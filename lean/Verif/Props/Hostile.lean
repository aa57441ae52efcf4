import Verif.Props.Close
import Verif.Props.Agent
/-! # What a hostile asset can and cannot do to a pair's other asset (C103) -/

namespace Halo
open _root_.Halo.Spec

namespace PairSite
variable {c : Chain} {k : PairSite}

/-- A pair announces a swap, a deposit or a withdrawal only when it is called. -/
theorem Known.called {adv : Adv} {n : Nat} {v v' : World} {f : Frame} {fs : List Frame} (hk : k.Known c v)
    (h : StepI c adv n v f v' fs) {E : Event} (hE : (k.a, E) ∈ said c adv n v f) (hl : ∀ l, E ≠ .liquidityToken l) :
    ∃ sender target em funds id w1 adm s' r, f = .msg sender ⟨.exec target em funds, id⟩ ∧ c.api.resolve target = .ok k.a ∧
      moveCoins v sender k.a funds = .ok w1 ∧
      Pair.execute c.api (querier c (adv.query n) w1) k.a k.s sender funds em = .ok (s', r) ∧ E ∈ r.events ∧
      v' = w1.setState k.a adm (.pair s') ∧ fs = frames k.a r ++ replyFrame sender id none := by
  obtain ⟨adm0, hp⟩ := hk.live
  rw [← mem_saidBy] at hE
  have notme : ∀ {me adm s}, v.contracts me = some ⟨adm, s⟩ → (∀ p, s ≠ .pair p) → me ≠ k.a := by
    rintro me adm s h1 h2 rfl
    rw [hp] at h1
    cases h1
    exact h2 _ rfl
  cases h with
  | bank | migrate | admin | inst => cases hE
  | token sender target em funds id me w1 admin s1 s' r hme hmv hrr hc hxx
  | factory sender target em funds id me w1 admin s1 s' r hme hmv hrr hc hxx
  | router sender target em funds id me w1 admin s1 s' r hme hmv hrr hc hxx
  | other sender target em funds id me w1 admin ms hme hmv hc =>
    rw [saidBy_other hme (notme hc (fun _ h => by cases h))] at hE
    cases hE
  | replyFactory me id cr admin s1 s' r hc hxx =>
    rw [show saidBy k.a (said c adv n v (.reply me id cr)) = [] from saidBy_ne (notme hc (fun _ h => by cases h)) _] at hE
    cases hE
  | replyOther me id cr admin ms hc =>
    rw [show saidBy k.a (said c adv n v (.reply me id cr)) = [] from saidBy_ne (notme hc (fun _ h => by cases h)) _] at hE
    cases hE
  | replyPair me id cr admin s1 s' r hc hxx =>
    by_cases hd : me = k.a
    swap
    · rw [show saidBy k.a (said c adv n v (.reply me id cr)) = [] from saidBy_ne hd _] at hE
      cases hE
    subst hd
    rw [mem_saidBy] at hE
    simp only [said, hc, hxx, eventsOf, List.mem_map, Prod.mk.injEq, true_and, exists_eq_right] at hE
    simp only [Pair.reply, bind_eq_ok, pure_eq_ok, Prod.mk.injEq] at hxx
    obtain ⟨lt, _, _, _, _, rfl⟩ := hxx
    simp only [List.mem_singleton] at hE
    exact absurd hE (hl lt)
  | pair sender target em funds id me w1 admin s1 s' r hme hmv hrr hc hxx =>
    by_cases hd : me = k.a
    swap
    · rw [saidBy_other hme hd] at hE
      cases hE
    subst hd
    have hm := moveCoins_inv hmv
    rw [hp] at hc
    cases hc
    have hc1 : w1.contracts k.a = some ⟨adm0, .pair k.s⟩ := (congrFun hm.contracts _).trans hp
    rw [mem_saidBy] at hE
    simp only [said, hme, hmv, hc1, hxx, eventsOf, List.mem_map, Prod.mk.injEq, true_and, exists_eq_right] at hE
    exact ⟨sender, target, em, funds, id, w1, _, s', r, rfl, hme, hmv, hxx, hE, rfl, rfl⟩

/-- The answer about an asset that is not hostile is true. -/
theorem Known.pool_true {q : Querier} {v : World} {p0 p1 : Asset} (hx : k.Ctx c) {i : AssetInfo} (hon : Honest v i)
    (h : k.s.queryPools (querier c q v) c.api k.a = .ok (p0, p1)) :
    (p0.info = k.i0 ∧ p1.info = k.i1) ∧ (k.i0 = i → p0.amount = held v i k.a) ∧ (k.i1 = i → p1.amount = held v i k.a) := by
  have he := hx.pool_infos h
  obtain ⟨_, _, h3, h4⟩ := queryPools_eq_ok.mp h
  simp only at h3 h4
  rw [he.1] at h3
  rw [he.2] at h4
  refine ⟨he, ?_, ?_⟩
  · rintro rfl; exact (queryPool_held hon h3).1
  · rintro rfl; exact (queryPool_held hon h4).1

theorem honest_moved {v w1 : World} (h : w1.contracts = v.contracts) {i : AssetInfo} (hon : Honest v i) : Honest w1 i := by
  intro t ht
  rw [h]
  exact hon t ht

/-- Storing the pair's state changes nothing that is held. -/
theorem held_set {w1 : World} {a b : Addr} {adm : Option Addr} {s s' : Pair.State} {i : AssetInfo} {adm0 : Option Addr}
    (hp : w1.contracts a = some ⟨adm0, .pair s⟩) (hon : Honest w1 i) : held (w1.setState a adm (.pair s')) i b = held w1 i b := by
  refine held_congr (fun _ _ => rfl) (fun t ht => ?_)
  obtain ⟨_, _, h⟩ := hon t ht
  have : t ≠ a := by rintro rfl; rw [hp] at h; cases h
  simp [World.setState, World.setContract, this]

end PairSite
open PairSite

/-- **C103.** Whatever the other asset is and answers, a swap pays at most what the pair holds less the fee of 0.3%, rounded down. -/
theorem C103_swap {c : Chain} (hc : c.Lawful) {adv : Adv} {n : Nat} {v v' : World} {f : Frame} {fs : List Frame}
    (hs : step c adv n v f = .ok (v', fs)) {k : PairSite} (hk : k.Known c v) {i : AssetInfo} (hon : Honest v i)
    {u rcv : Str} {o : AssetInfo} {x r sp cm : Nat} (hE : (k.a, .swap u rcv o i x r sp cm) ∈ said c adv n v f) :
    r + 3 * held v' i k.a / 1000 ≤ held v' i k.a := by
  have hx := hk.ctx hc
  obtain ⟨adm0, hp⟩ := hk.live
  obtain ⟨sender, target, em, funds, id, w1, adm, s', rs, rfl, hme, hmv, hxx, he, rfl, _⟩ := hk.called (step_inv hs) hE (fun _ h => by cases h)
  have hm := moveCoins_inv hmv
  have hp1 := (congrFun hm.contracts k.a).trans hp
  have hon1 := honest_moved hm.contracts hon
  rw [held_set hp1 hon1]
  rcases Pair.execute_inv hxx with ⟨_, x, bp, ms, to_, rfl, hex⟩ | ⟨_, x, rfl, hex⟩ | ⟨as, tol, rc, rfl, hex⟩
  · obtain ⟨_, _, o', a', od, ad, ret, sp, cm, hw⟩ := Pair.receive_swap_inv (funds := funds) hex
    rw [hw.h_resp] at he
    simp only [List.mem_singleton, Event.swap.injEq] at he
    obtain ⟨rfl, rfl, rfl, rfl, rfl, rfl, rfl, rfl⟩ := he
    have ha : a'.amount = held w1 a'.info k.a := by
      rcases hw.h_pools with ⟨hq, _⟩ | ⟨hq, _⟩
      · obtain ⟨hi, _, h2⟩ := Known.pool_true hx hon1 hq
        exact h2 hi.2.symm
      · obtain ⟨hi, h2, _⟩ := Known.pool_true hx hon1 hq
        exact h2 hi.1.symm
    obtain ⟨_, _, h3⟩ := computeSwap_form hw.h_price
    have := grossOf_le (o'.amount - x) a'.amount x
    simp only at h3
    rw [h3, ← ha]
    omega
  · obtain ⟨_, _, _, p0, p1, lt, ti, ratio, r0, r1, hw⟩ := Pair.receive_withdraw_inv (funds := funds) hex
    rw [hw.h_resp] at he
    simp at he
  · obtain ⟨_, p0, p1, d0, d1, lt, ti, share, hw⟩ := Pair.provide_inv hex
    rw [hw.h_resp] at he
    simp at he

/-- **C103.** A withdrawal pays of an asset that is not hostile exactly the share of what the pair holds of it, whatever the other
asset is and answers. -/
theorem C103_withdraw {c : Chain} (hc : c.Lawful) {adv : Adv} {n : Nat} {v v' : World} {f : Frame} {fs : List Frame}
    (hs : step c adv n v f = .ok (v', fs)) {k : PairSite} (hk : k.Known c v) {i : AssetInfo} (hi : k.i0 = i ∨ k.i1 = i)
    (hon : Honest v i) {u : Str} {x : Nat} {as : Asset × Asset} (hE : (k.a, .withdrawLiquidity u x as) ∈ said c adv n v f) :
    took i (.withdrawLiquidity u x as) = refund (held v' i k.a) x (supplyAt v' k.lt) := by
  have hx := hk.ctx hc
  obtain ⟨adm0, hp⟩ := hk.live
  obtain ⟨sender, target, em, funds, id, w1, adm, s', rs, rfl, hme, hmv, hxx, he, rfl, _⟩ := hk.called (step_inv hs) hE (fun _ h => by cases h)
  have hm := moveCoins_inv hmv
  have hp1 := (congrFun hm.contracts k.a).trans hp
  have hon1 := honest_moved hm.contracts hon
  rw [held_set hp1 hon1]
  rcases Pair.execute_inv hxx with ⟨_, x, bp, ms, to_, rfl, hex⟩ | ⟨_, x, rfl, hex⟩ | ⟨as, tol, rc, rfl, hex⟩
  · obtain ⟨_, _, o', a', od, ad, ret, sp, cm, hw⟩ := Pair.receive_swap_inv (funds := funds) hex
    rw [hw.h_resp] at he
    simp at he
  · obtain ⟨_, _, _, p0, p1, lt, ti, ratio, r0, r1, hw⟩ := Pair.receive_withdraw_inv (funds := funds) hex
    rw [hw.h_resp] at he
    simp only [List.mem_singleton, Event.withdrawLiquidity.injEq] at he
    obtain ⟨rfl, rfl, rfl⟩ := he
    obtain ⟨⟨e0, e1⟩, h0, h1⟩ := Known.pool_true hx hon1 hw.h_pools
    have hlt := hw.h_lt
    rw [hx.lp] at hlt
    cases hlt
    obtain ⟨admt, st, hst⟩ := honest_moved hm.contracts hk.token k.lt rfl
    have hS := tokenInfo_supply hx.resolveLp hst hw.h_supply
    have hS' : supplyAt (w1.setState k.a adm (.pair s')) k.lt = supplyAt w1 k.lt := by
      refine supplyAt_congr ?_
      have : k.lt ≠ k.a := by intro h; rw [h, hp1] at hst; cases hst
      simp [World.setState, World.setContract, this]
    rw [hS']
    have hr := hw.h_ratio
    rw [hS] at hr
    have hne := hx.ne
    have hr0 := hw.h_r0
    have hr1 := hw.h_r1
    simp only [Uint128.decFromRatio_eq_ok] at hr
    simp only [Uint128.mulDecimal_eq_ok] at hr0 hr1
    have hD : DF = 10 ^ 18 := by norm_num [DF]
    rw [hD] at hr hr0 hr1
    simp only [took, e0, e1]
    rcases hi with rfl | rfl
    · simp only [↓reduceIte, hne.symm, Nat.add_zero]
      rw [hr0.2, hr.2.2, h0 rfl]
      rfl
    · simp only [↓reduceIte, hne, Nat.zero_add]
      rw [hr1.2, hr.2.2, h1 rfl]
      rfl
  · obtain ⟨_, p0, p1, d0, d1, lt, ti, share, hw⟩ := Pair.provide_inv hex
    rw [hw.h_resp] at he
    simp at he

/-- **C103.** A deposit of a share creates at most that share of LP tokens, measured by an asset that is not hostile, whatever the
other asset is and answers. -/
theorem C103_deposit {c : Chain} (hc : c.Lawful) {adv : Adv} {n : Nat} {v v' : World} {f : Frame} {fs : List Frame}
    (hh : Happens c v f) (hs : step c adv n v f = .ok (v', fs)) {k : PairSite} (hk : k.Known c v) {i : AssetInfo} (hi : k.i0 = i ∨ k.i1 = i)
    (hon : Honest v i) {u rcv : Str} {share : Nat} {as : Asset × Asset}
    (hE : (k.a, .provideLiquidity u rcv as share) ∈ said c adv n v f) (h0 : supplyAt v k.lt ≠ 0) :
    share * held v i k.a ≤ gave i (.provideLiquidity u rcv as share) * supplyAt v k.lt := by
  have hx := hk.ctx hc
  obtain ⟨adm0, hp⟩ := hk.live
  obtain ⟨rest, hsane⟩ := hh.all (P := Sane c) (fun w u m hw hu => hw.sane.start hu m) (fun _ _ _ _ _ _ _ hp hs => hp.step hs)
  obtain ⟨sender, target, em, funds, id, w1, adm, s', rs, rfl, hme, hmv, hxx, he, rfl, _⟩ := hk.called (step_inv hs) hE (fun _ h => by cases h)
  have hm := moveCoins_inv hmv
  have hp1 := (congrFun hm.contracts k.a).trans hp
  have hon1 := honest_moved hm.contracts hon
  rcases Pair.execute_inv hxx with ⟨_, x, bp, ms, to_, rfl, hex⟩ | ⟨_, x, rfl, hex⟩ | ⟨as, tol, rc, rfl, hex⟩
  · obtain ⟨_, _, o', a', od, ad, ret, sp, cm, hw⟩ := Pair.receive_swap_inv (funds := funds) hex
    rw [hw.h_resp] at he
    simp at he
  · obtain ⟨_, _, _, p0, p1, lt, ti, ratio, r0, r1, hw⟩ := Pair.receive_withdraw_inv (funds := funds) hex
    rw [hw.h_resp] at he
    simp at he
  have hne : sender ≠ k.a := by
    rintro rfl
    cases hsane.pairFrames _ _ _ hp _ List.mem_cons_self rfl with
    | out _ ho => cases ho
  have hnd : (funds.map Coin.denom).Nodup := by
    unfold moveCoins at hmv
    simp only [bind_eq_ok, require_eq_ok] at hmv
    obtain ⟨_, h1, _⟩ := hmv
    simpa using h1
  obtain ⟨_, p0, p1, d0, d1, lt, ti, share, hw⟩ := Pair.provide_inv hex
  rw [hw.h_resp] at he
  simp only [List.mem_singleton, Event.provideLiquidity.injEq] at he
  obtain ⟨rfl, rfl, rfl, rfl⟩ := he
  obtain ⟨⟨e0, e1⟩, q0, q1⟩ := Known.pool_true hx hon1 hw.h_pools
  have hlt := hw.h_lt
  rw [hx.lp] at hlt
  cases hlt
  obtain ⟨admt, st, hst⟩ := honest_moved hm.contracts hk.token k.lt rfl
  have hS := (tokenInfo_supply hx.resolveLp hst hw.h_supply).trans (supplyAt_congr (congrFun hm.contracts _))
  have arrived : ∀ j d, Pair.depositFor as j = .ok d → held w1 j k.a = held v j k.a + (if j.isNative then d else 0) := by
    intro j d hd
    cases j with
    | token t =>
      simp only [AssetInfo.isNative, Bool.false_eq_true, ↓reduceIte, Nat.add_zero]
      exact held_congr (fun _ h => by cases h) (fun t _ => congrFun hm.contracts t)
    | native dn =>
      have : coinSum dn funds = d := by
        rcases Pair.depositFor_eq_ok.mp hd with ⟨h1, rfl⟩ | ⟨_, h1, rfl⟩
        · exact coinSum_of_sent hnd h1 hw.h_sent0
        · exact coinSum_of_sent hnd h1 hw.h_sent1
      simp only [held, AssetInfo.isNative, ↓reduceIte]
      rw [hm.dst_bal hne, this]
  have prior : ∀ (p : Asset) d, Pair.depositFor as p.info = .ok d → p.amount = held w1 p.info k.a →
      Pair.priorPool p d = held v p.info k.a := by
    intro p d hd hp
    have := arrived _ _ hd
    unfold Pair.priorPool
    cases hi : p.info with
    | token t => rw [hi] at hp this; simpa [AssetInfo.isNative, hp] using this
    | native dn => rw [hi] at hp this; simp only [AssetInfo.isNative, ↓reduceIte] at hp this ⊢; omega
  have given : ∀ j d, Pair.depositFor as j = .ok d → ∀ a b s, d ≤ gave j (.provideLiquidity a b as s) := by
    intro j d hd _ _ _
    simp only [gave]
    rcases Pair.depositFor_eq_ok.mp hd with ⟨h1, rfl⟩ | ⟨_, h1, rfl⟩ <;> simp [h1]
  have hsh := hw.h_share
  unfold Pair.shareFor at hsh
  rw [hS] at hsh
  simp only [h0, ↓reduceIte, bind_eq_ok, Uint128.multiplyRatio_eq_ok, pure_eq_ok] at hsh
  obtain ⟨_, ⟨n0, _, rfl⟩, _, ⟨n1, _, rfl⟩, rfl⟩ := hsh
  rcases hi with rfl | rfl
  · have h1 := prior p0 d0 hw.h_d0 (by rw [e0]; exact q0 rfl)
    have h2 := given _ _ (e0 ▸ hw.h_d0)
    rw [e0] at h1
    rw [h1]
    refine le_trans (Nat.mul_le_mul_right _ (Nat.min_le_left _ _)) (le_trans (Nat.div_mul_le_self _ _) ?_)
    exact Nat.mul_le_mul_right _ (h2 _ _ _)
  · have h1 := prior p1 d1 hw.h_d1 (by rw [e1]; exact q1 rfl)
    have h2 := given _ _ (e1 ▸ hw.h_d1)
    rw [e1] at h1
    rw [h1]
    refine le_trans (Nat.mul_le_mul_right _ (Nat.min_le_right _ _)) (le_trans (Nat.div_mul_le_self _ _) ?_)
    exact Nat.mul_le_mul_right _ (h2 _ _ _)

namespace PairSite
variable {c : Chain} {k : PairSite}

/-- A contract that refuses every call ends the run. -/
theorem refused {adv : Adv} {T : Addr} (hr : ∀ n, ∃ e, adv.act n T = .error e) {v : World} {adm : Option Addr}
    (ho : v.contracts T = some ⟨adm, .other⟩) (hres : c.api.resolve T = .ok T) {n n' : Nat} {v' : World} {u : Addr} {em : ExecMsg}
    {id : Option Nat} {rest : List Frame} : run c adv n v (.msg u ⟨.exec T em [], id⟩ :: rest) ≠ .ok (n', v') := by
  intro h
  obtain ⟨m, w1, fs1, rfl, hs, _⟩ := run_cons_inv h
  simp only [step, bind_eq_ok, hres, Except.ok.injEq, require_eq_ok, moveCoins_nil] at hs
  obtain ⟨_, rfl, _, _, _, rfl, ⟨_, _⟩, hs, _⟩ := hs
  simp only [callExecute, bind_eq_ok, require_eq_ok, ho] at hs
  obtain ⟨_, _, hs⟩ := hs
  obtain ⟨e, he⟩ := hr m
  simp [he] at hs

end PairSite

/-- **C103.** If an asset of a pair is a contract that refuses to be called, nobody can withdraw from the pair: the other asset is
locked in it. -/
theorem C103_locked {c : Chain} (hc : c.Lawful) {w w' : World} (hw : Reachable c w) {adv : Adv} {gas : Nat} {signer : Addr}
    {m : CosmosMsg} (hu : c.IsUser signer) (hx : runTx c adv gas w signer m = .ok w') {k : PairSite} (hk : k.Known c w) {T : Addr}
    (hT : k.i0 = .token T ∨ k.i1 = .token T) {admT : Option Addr} (hoT : w.contracts T = some ⟨admT, .other⟩)
    (hr : ∀ n, ∃ e, adv.act n T = .error e) :
    ∀ u x as, (k.a, .withdrawLiquidity u x as) ∉ log c adv gas w [.msg signer (plain m)] := by
  intro u x as hE
  have hctx := hk.ctx hc
  have hres : c.api.resolve T = .ok T := by
    rcases hT with h | h
    · exact hctx.resolve0 h
    · exact hctx.resolve1 h
  obtain ⟨n', hrun⟩ := runTx_inv hx
  obtain ⟨n, v, f, rest, hcm, hE⟩ := mem_log .refl hrun hE
  have hop := hk.is_open hc hw hk.token
  obtain ⟨st0, hl0, _⟩ := hop.lp
  have hv : (∃ adm, v.contracts T = some ⟨adm, .other⟩) ∧ (∃ st, v.contracts k.lt = some ⟨none, .token st⟩) ∧
      (k.Gone k.lt v ∨ k.Seen c k.lt v (f :: rest)) :=
    hcm.all (P := fun v fs => (∃ adm, v.contracts T = some ⟨adm, .other⟩) ∧ (∃ st, v.contracts k.lt = some ⟨none, .token st⟩) ∧
      (k.Gone k.lt v ∨ k.Seen c k.lt v fs)) ⟨⟨_, hoT⟩, ⟨_, hl0⟩, .inr (Seen.start hw hop hu m)⟩
      (fun _ _ _ _ _ _ ⟨⟨_, h1⟩, ⟨_, h2⟩, h3⟩ hs => ⟨(other_step hs h1).imp fun _ h => h.1, tok_noadmin hs h2,
        h3.elim (fun h => .inl (h.step hs)) (fun h => h.step hs)⟩)
  obtain ⟨hTv, ⟨stv, hlv⟩, h3⟩ := hv
  have hsaid0 : ¬ ∃ adm, v.contracts k.a = some ⟨adm, .other⟩ := by
    rintro ⟨adm, ho⟩
    cases f with
    | reply b id cr =>
      simp only [said, List.mem_map, Prod.mk.injEq] at hE
      obtain ⟨E, hE, rfl, _⟩ := hE
      rw [ho] at hE
      cases hE
    | msg b sm =>
      obtain ⟨mm, id⟩ := sm
      cases mm with
      | exec t em fu =>
        simp only [said] at hE
        split at hE
        · cases hE
        · split at hE
          · cases hE
          · rename_i hmv
            simp only [List.mem_map, Prod.mk.injEq] at hE
            obtain ⟨E, hE, rfl, _⟩ := hE
            rw [(moveCoins_inv hmv).contracts, ho] at hE
            cases hE
      | _ => cases hE
  rcases h3 with (hb | ⟨_, hb⟩) | h3
  · exact hsaid0 hb
  · rw [hb] at hlv
    cases hlv
  have hkv : k.Known c v :=
    ⟨h3.good.live, hk.info0, hk.info1, hk.lp, hk.ne, hk.lp0, hk.lp1, fun t ht => by cases ht; exact h3.good.tok⟩
  have hr2 := hcm.run.trans hrun
  obtain ⟨_, w1, fs1, he, hs, hr3⟩ := run_cons_inv hr2
  cases he
  obtain ⟨sender, target, em, funds, id, w1, adm, s', rs, rfl, hme, hmv, hxx, he, rfl, rfl⟩ := hkv.called (step_inv hs) hE (fun _ h => by cases h)
  have hTw := other_step (step_inv hs) hTv.choose_spec
  obtain ⟨admw, hTw, _⟩ := hTw
  rcases Pair.execute_inv hxx with ⟨_, x, bp, ms, to_, rfl, hex⟩ | ⟨_, x, rfl, hex⟩ | ⟨as, tol, rc, rfl, hex⟩
  · obtain ⟨_, _, o', a', od, ad, ret, sp, cm, hw⟩ := Pair.receive_swap_inv (funds := funds) hex
    rw [hw.h_resp] at he
    simp at he
  · obtain ⟨_, _, _, p0, p1, lt, ti, ratio, r0, r1, hw⟩ := Pair.receive_withdraw_inv (funds := funds) hex
    obtain ⟨e0, e1⟩ := hctx.pool_infos hw.h_pools
    rw [hw.h_resp] at hr3
    simp only [frames, List.map_cons, List.map_nil, List.cons_append, List.nil_append, e0, e1] at hr3
    rcases hT with h | h
    · rw [h] at hr3
      exact refused hr hTw hres hr3
    · rw [h, ← List.singleton_append (l := _ :: _), run_append] at hr3
      obtain ⟨n2, v2, hr4, hr5⟩ := hr3
      obtain ⟨adm2, h2⟩ := other_run hTw hr4
      exact refused hr h2 hres hr5
  · obtain ⟨_, p0, p1, d0, d1, lt, ti, share, hw⟩ := Pair.provide_inv hex
    rw [hw.h_resp] at he
    simp at he

/-! ## Examples -/

namespace Demo

/-- A contract somebody has uploaded. -/
def tX : Addr := chain.addrOf deployed.next
def pAX : Addr := chain.addrOf (deployed.next + 1)
def lpAX : Addr := chain.addrOf (deployed.next + 2)
/-- A pair of token A and that contract. -/
def siteAX : PairSite where
  a := pAX
  lt := lpAX
  s := { assetInfos := (.token tA, .token tX), contractAddr := pAX, liquidityToken := lpAX, assetDecimals := (6, 6),
         requirements := ⟨[user], 10, 10⟩ }
  i0 := .token tA
  i1 := .token tX
/-- It accepts every call and claims that the pair holds `x` of it. -/
def claims (x : Nat) : Adv := { idle with query := fun _ => q 0 x 0 }
/-- `user` uploads it, creates the pair and deposits 1000 A "and 1000 X". -/
def setupAX : List CosmosMsg :=
  [.inst none 9 (.raw []) [], .exec fac (.createPair (.token tA, .token tX) ⟨[user], 10, 10⟩) [], approve tA pAX,
   .exec pAX (.provideLiquidity (⟨.token tA, 1000⟩, ⟨.token tX, 1000⟩) none none) []]
def filledAX : World := worldOf (runs setupAX deployed)
theorem filledAX_run : runs setupAX deployed = .ok filledAX := worldOf_eq (by decide +kernel)
theorem filledAX_reachable : Reachable chain filledAX := deployed_reachable.later (later_runs filledAX_run)
theorem known_AX : siteAX.Known chain filledAX where
  live := by
    have : (pairAt filledAX pAX).map Prod.snd = some siteAX.s := by decide +kernel
    obtain ⟨⟨adm, s⟩, h1, h2⟩ := Option.map_eq_some_iff.mp this
    cases h2
    exact ⟨adm, pairAt_eq h1⟩
  info0 := rfl
  info1 := rfl
  lp := rfl
  ne := by decide +kernel
  lp0 := by decide +kernel
  lp1 := by decide +kernel
  token := by
    intro t ht
    cases ht
    exact (exists_token (w := filledAX) (a := lpAX) (t := fun _ => true) (by decide +kernel)).imp fun _ => Exists.imp fun _ h => h.1

/-- Called with that much fuel left, it asks for a swap of a million of itself in the name of `user2`. -/
def drainAX : Adv := { claims 1000001 with
  act := fun n a => if n = 19 ∧ a = tX then .ok [plain (.exec pAX (.receive user2 1000000 (.swap none none none)) [])] else .ok [] }
def drainTx : CosmosMsg := .exec tX (.burn 0) []
def drainedAX : World := worldOf (runTx chain drainAX 20 filledAX user2 drainTx)
theorem drainedAX_run : runTx chain drainAX 20 filledAX user2 drainTx = .ok drainedAX := worldOf_eq (by decide +kernel)

theorem honest_A : Honest filledAX (.token tA) := by
  intro t ht
  cases ht
  exact (exists_token (w := filledAX) (a := tA) (t := fun _ => true) (by decide +kernel)).imp fun _ => Exists.imp fun _ h => h.1

/-- The bound of `C103_swap` is attained: all but the fee is gone for nothing. The books still balance (C102). -/
example : held filledAX (.token tA) pAX = 1000 ∧ held drainedAX (.token tA) pAX = 3 ∧ held drainedAX (.token tA) user2 = 997 := by
  decide +kernel
example := C102_reserve lawful filledAX_reachable (.tx _ _ _ _ _ _ _ _ .refl isUser_user2 drainedAX_run) known_AX (.inl rfl) honest_A

/-- The machine state in which the pair executes the contract's request. -/
def drainFrame : Frame := .msg tX (plain (.exec pAX (.receive user2 1000000 (.swap none none none)) []))
example : (pAX, .swap user2 user2 (.token tX) (.token tA) 1000000 997 999999001 2) ∈ said chain drainAX 18 filledAX drainFrame := by decide +kernel

theorem ok_of {r : R α} (h : isOk r = true) : ∃ x, r = .ok x := by
  cases r with
  | ok x => exact ⟨x, rfl⟩
  | error => cases h

example : ∃ v', 997 + 3 * held v' (.token tA) siteAX.a / 1000 ≤ held v' (.token tA) siteAX.a := by
  obtain ⟨⟨v', fs⟩, h⟩ := ok_of (r := step chain drainAX 18 filledAX drainFrame) (by decide +kernel)
  exact ⟨v', C103_swap lawful h known_AX honest_A (u := user2) (rcv := user2) (o := .token tX) (x := 1000000) (sp := 999999001) (cm := 2)
    (by decide +kernel)⟩

/-- A withdrawal of half of the LP tokens, whatever the contract claims. -/
def halfFrame : Frame := .msg lpAX (plain (.exec pAX (.receive user 500 .withdrawLiquidity) []))
example (x : Nat) (hx : x = 7 ∨ x = 2000000) : ∃ v' as, took (.token tA) (.withdrawLiquidity user 500 as) = 500 ∧
    took (.token tA) (.withdrawLiquidity user 500 as) = refund (held v' (.token tA) siteAX.a) 500 (supplyAt v' siteAX.lt) := by
  rcases hx with rfl | rfl
  · obtain ⟨⟨v', fs⟩, h⟩ := ok_of (r := step chain (claims 7) 18 filledAX halfFrame) (by decide +kernel)
    exact ⟨v', (⟨.token tA, 500⟩, ⟨.token tX, 3⟩), by decide +kernel, C103_withdraw lawful h known_AX (.inl rfl) honest_A (by decide +kernel)⟩
  · obtain ⟨⟨v', fs⟩, h⟩ := ok_of (r := step chain (claims 2000000) 18 filledAX halfFrame) (by decide +kernel)
    exact ⟨v', (⟨.token tA, 500⟩, ⟨.token tX, 1000000⟩), by decide +kernel, C103_withdraw lawful h known_AX (.inl rfl) honest_A (by decide +kernel)⟩

/-- A deposit of 100 A with the claim that the pair holds next to nothing of the contract. -/
def cheapTx : CosmosMsg := .exec pAX (.provideLiquidity (⟨.token tA, 100⟩, ⟨.token tX, 1000⟩) none none) []
example : 100 * held filledAX (.token tA) siteAX.a ≤ gave (.token tA) (.provideLiquidity user user (⟨.token tA, 100⟩, ⟨.token tX, 1000⟩) 100) * supplyAt filledAX siteAX.lt := by
  obtain ⟨⟨v', fs⟩, h⟩ := ok_of (r := step chain (claims 1) 18 filledAX (.msg user (plain cheapTx))) (by decide +kernel)
  exact C103_deposit lawful (.start filledAX_reachable isUser_user _ idle) h known_AX (.inl rfl) honest_A (by decide +kernel) (by decide +kernel)

/-- Whether a foreign contract is at the address. -/
def foreignAt (w : World) (a : Addr) : Bool := match w.contracts a with | some ⟨_, .other⟩ => true | _ => false
theorem exists_other {w : World} {a : Addr} (h : foreignAt w a = true) : ∃ adm, w.contracts a = some ⟨adm, .other⟩ := by
  unfold foreignAt at h
  split at h
  · exact ⟨_, by assumption⟩
  · cases h

/-- The contract refuses to be called. -/
def stubborn : Adv := { claims 1000 with act := fun _ _ => .error .unauthorized }
def leaveTx : CosmosMsg := .exec lpAX (.send pAX 500 .withdrawLiquidity) []
example : isOk (runTx chain stubborn 20 filledAX user leaveTx) = false ∧ isOk (runTx chain (claims 1000) 20 filledAX user leaveTx) = true := by decide +kernel
example (m : CosmosMsg) (w' : World) (h : runTx chain stubborn 20 filledAX user m = .ok w') :=
  C103_locked lawful filledAX_reachable isUser_user h known_AX (.inr rfl)
    (exists_other (w := filledAX) (a := tX) (by decide +kernel)).choose_spec (fun _ => ⟨_, rfl⟩)

/-- That a deposit cannot dilute (`C103_deposit`) and a withdrawal pays the share (`C103_withdraw`) does not protect somebody who
deposits: `user2` deposits 500 A; the pair collects them; the contract, called for its part, gives back 1000 LP tokens that it holds
and gets the 500 A too; then `user2` gets LP tokens of an empty pool. -/
def prepareAX : List CosmosMsg := [.exec tA (.transfer user2 500) [], .exec lpAX (.transfer tX 1000) []]
def preparedAX : World := worldOf (do
  let w ← runs prepareAX filledAX
  runTx chain idle 20 w user2 (approve tA pAX))
def reenterAX : Adv := { claims 1000 with
  act := fun n a => if n = 17 ∧ a = tX then .ok [plain (.exec lpAX (.send pAX 1000 .withdrawLiquidity) [])] else .ok [] }
def joinTx : CosmosMsg := .exec pAX (.provideLiquidity (⟨.token tA, 500⟩, ⟨.token tX, 500⟩) none none) []
def joinedAX : World := worldOf (runTx chain reenterAX 20 preparedAX user2 joinTx)
example : isOk (runTx chain reenterAX 20 preparedAX user2 joinTx) = true ∧
    (held preparedAX (.token tA) pAX, held preparedAX (.token tA) user2, held preparedAX (.token tA) tX) = (1000, 500, 0) ∧
    (held joinedAX (.token tA) pAX, held joinedAX (.token tA) user2, held joinedAX (.token tA) tX) = (0, 0, 1500) ∧
    held joinedAX (.token lpAX) user2 = 500 ∧ supplyAt joinedAX lpAX = 500 := by decide +kernel

end Demo

end Halo
