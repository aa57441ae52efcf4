import Verif.Lemmas.XferL
/-! # Exact effect of deposits and withdrawals on all balances (helper lemmas for C15–C17, C26) -/

namespace Halo
open _root_.Halo.Spec

/-- `x` of the asset `i` (possibly nothing) moved from `src` to `dst`; nothing else changed but allowances. -/
structure Flow (i : AssetInfo) (src dst : Addr) (x : Nat) (v v' : World) : Prop where
  le : x ≤ held v i src
  src_bal : held v' i src + x = held v i src
  dst_bal : held v' i dst = held v i dst + x
  rest : ∀ b, b ≠ src → b ≠ dst → held v' i b = held v i b
  other : ∀ j, j ≠ i → ∀ b, held v' j b = held v j b
  keep : TokKeep v v'

theorem Xfer.flow {i : AssetInfo} {src dst : Addr} {x : Nat} {v v' : World} (h : Xfer i src dst x v v')
    (hne : src ≠ dst) : Flow i src dst x v v' := by
  obtain ⟨h1, h2⟩ := h.bal hne
  have := h.le
  exact ⟨h.le, by omega, h2, h.rest, h.other, h.keep⟩

/-- The effect of moving balances and changing allowances inside a token. -/
theorem flow_token {v : World} {t : Addr} {adm : Option Addr} {st : TokenState} {src dst : Addr} {x : Nat}
    (al : AMap (Addr × Addr) Allowance) (ht : v.contracts t = some ⟨adm, .token st⟩)
    (hb : x ≤ st.balances.getD0 src) (hne : src ≠ dst) :
    Flow (.token t) src dst x v
      (v.setState t adm (.token { st with balances := Token.moveBal st.balances src dst x, allowances := al })) := by
  have e2 : ∀ s, (v.setState t adm s).contracts t = some ⟨adm, s⟩ := fun s => setContract_self _ _ _
  refine ⟨by rw [held_token ht]; exact hb, ?_, ?_, ?_, ?_, ?_⟩
  · rw [held_token (e2 _), held_token ht, Token.moveBal_get]
    simp only [hne, ↓reduceIte]
    omega
  · rw [held_token (e2 _), held_token ht, Token.moveBal_get]
    simp [Ne.symm hne]
  · intro b h1 h2
    rw [held_token (e2 _), held_token ht, Token.moveBal_get]
    simp [h1, h2]
  · intro j hj b
    refine held_congr (fun _ _ => rfl) (fun t' ht' => setContract_ne _ _ ?_)
    rintro rfl
    exact hj ht'
  · intro b
    by_cases hbt : b = t
    · subst hbt
      exact .inr ⟨adm, st, _, ht, setContract_self _ _ _, rfl, rfl⟩
    · exact .inl (setContract_ne _ _ hbt)

theorem TokKeep.supply {v v' : World} (h : TokKeep v v') (t : Addr) : supplyAt v' t = supplyAt v t := by
  rcases h t with h1 | ⟨adm, st, st', h1, h2, _, h3⟩
  · exact supplyAt_congr h1
  · rw [supplyAt_token h1, supplyAt_token h2, h3]

/-- All contracts stay as they are, except for balances, allowances and supplies inside tokens. -/
def MintKeep (v v' : World) : Prop :=
  ∀ b, v'.contracts b = v.contracts b ∨ ∃ adm st st', v.contracts b = some ⟨adm, .token st⟩ ∧
    v'.contracts b = some ⟨adm, .token st'⟩ ∧ st'.mint = st.mint

theorem TokKeep.mints {v v' : World} (h : TokKeep v v') : MintKeep v v' := fun b =>
  (h b).imp id fun ⟨adm, st, st', h1, h2, h3, _⟩ => ⟨adm, st, st', h1, h2, h3⟩

theorem MintKeep.trans {u v w : World} (h1 : MintKeep u v) (h2 : MintKeep v w) : MintKeep u w := by
  intro b
  rcases h2 b with e2 | ⟨adm, st, st', a, a', m⟩
  · rcases h1 b with e1 | ⟨adm, st, st', a, a', m⟩
    · exact .inl (e2.trans e1)
    · exact .inr ⟨adm, st, st', a, e2.trans a', m⟩
  · rcases h1 b with e1 | ⟨adm1, st1, st1', b1, b1', m1⟩
    · exact .inr ⟨adm, st, st', e1 ▸ a, a', m⟩
    · rw [a] at b1'
      cases b1'
      exact .inr ⟨adm, st1, st', b1, a', m.trans m1⟩

theorem MintKeep.set {v : World} {t : Addr} {adm : Option Addr} {st st' : TokenState} (ht : v.contracts t = some ⟨adm, .token st⟩)
    (hm : st'.mint = st.mint) : MintKeep v (v.setState t adm (.token st')) := by
  intro b
  by_cases hb : b = t
  · subst hb
    exact .inr ⟨adm, st, _, ht, setContract_self _ _ _, hm⟩
  · exact .inl (setContract_ne _ _ hb)

/-- `x` of the token `t` held by `a` disappears. -/
structure Burnt (t a : Addr) (x : Nat) (v v' : World) : Prop where
  pos : x ≠ 0
  bal : held v' (.token t) a + x = held v (.token t) a
  rest : ∀ b, b ≠ a → held v' (.token t) b = held v (.token t) b
  other : ∀ j, j ≠ .token t → ∀ b, held v' j b = held v j b
  supply : supplyAt v' t + x = supplyAt v t
  supplies : ∀ u, u ≠ t → supplyAt v' u = supplyAt v u
  keep : MintKeep v v'

/-- `x` of the token `t` appears at `a`. -/
structure Minted (t a : Addr) (x : Nat) (v v' : World) : Prop where
  pos : x ≠ 0
  bal : held v' (.token t) a = held v (.token t) a + x
  rest : ∀ b, b ≠ a → held v' (.token t) b = held v (.token t) b
  other : ∀ j, j ≠ .token t → ∀ b, held v' j b = held v j b
  supply : supplyAt v' t = supplyAt v t + x
  supplies : ∀ u, u ≠ t → supplyAt v' u = supplyAt v u
  keep : MintKeep v v'

theorem held_setToken_ne {v : World} {t : Addr} {k : Contract} {j : AssetInfo} (hj : j ≠ .token t) (b : Addr) :
    held (v.setContract t k) j b = held v j b := by
  refine held_congr (fun _ _ => rfl) (fun t' ht' => setContract_ne _ _ ?_)
  rintro rfl
  exact hj ht'

theorem burnt_of {v : World} {t a : Addr} {x : Nat} {adm : Option Addr} {st : TokenState}
    (ht : v.contracts t = some ⟨adm, .token st⟩) (hx : x ≠ 0) (hb : x ≤ st.balances.getD0 a) (hs : x ≤ st.totalSupply) :
    Burnt t a x v (v.setState t adm (.token { st with
      balances := st.balances.set a (st.balances.getD0 a - x), totalSupply := st.totalSupply - x })) := by
  have e2 : ∀ s, (v.setState t adm s).contracts t = some ⟨adm, s⟩ := fun s => setContract_self _ _ _
  refine ⟨hx, ?_, ?_, fun j hj b => held_setToken_ne hj b, ?_, fun u hu => supplyAt_congr (setContract_ne _ _ hu), .set ht rfl⟩
  · rw [held_token (e2 _), held_token ht, AMap.getD0_set]
    simp only [↓reduceIte]
    omega
  · intro b hb'
    rw [held_token (e2 _), held_token ht, AMap.getD0_set]
    simp [hb']
  · rw [supplyAt_token (e2 _), supplyAt_token ht]
    simp only
    omega

theorem minted_of {v : World} {t a : Addr} {x : Nat} {adm : Option Addr} {st : TokenState}
    (ht : v.contracts t = some ⟨adm, .token st⟩) (hx : x ≠ 0) :
    Minted t a x v (v.setState t adm (.token { st with
      balances := st.balances.set a (st.balances.getD0 a + x), totalSupply := st.totalSupply + x })) := by
  have e2 : ∀ s, (v.setState t adm s).contracts t = some ⟨adm, s⟩ := fun s => setContract_self _ _ _
  refine ⟨hx, ?_, ?_, fun j hj b => held_setToken_ne hj b, ?_, fun u hu => supplyAt_congr (setContract_ne _ _ hu), .set ht rfl⟩
  · rw [held_token (e2 _), held_token ht, AMap.getD0_set]
    simp
  · intro b hb'
    rw [held_token (e2 _), held_token ht, AMap.getD0_set]
    simp [hb']
  · rw [supplyAt_token (e2 _), supplyAt_token ht]

namespace PairSite
variable {c : Chain} {k : PairSite}

/-- The exact effect of sending `x` LP tokens to the pair with a withdrawal request. -/
theorem Good.withdraw_exact {adv : Adv} {n n' : Nat} {v v' : World} {S : Addr} {x : Nat}
    (hg : k.Good v) (hx : k.Ctx c) (hra : c.api.resolve k.a = .ok k.a)
    (hS : c.api.resolve S = .ok S) (hSa : S ≠ k.a)
    (h : run c adv n v [.msg S (plain (.exec k.lt (.send k.a x .withdrawLiquidity) []))] = .ok (n', v')) :
    ∃ r0 r1 v1 v2 v3, r0 = refund (held v k.i0 k.a) x (supplyAt v k.lt) ∧
      r1 = refund (held v k.i1 k.a) x (supplyAt v k.lt) ∧ supplyAt v k.lt ≠ 0 ∧ r0 ≠ 0 ∧ r1 ≠ 0 ∧
      Flow (.token k.lt) S k.a x v v1 ∧ Flow k.i0 k.a S r0 v1 v2 ∧ Flow k.i1 k.a S r1 v2 v3 ∧
      Burnt k.lt k.a x v3 v' ∧ k.Good v' := by
  obtain ⟨m, v1, fs1, rfl, hs, hr⟩ := run_cons_inv h
  obtain ⟨st, hst, hmint⟩ := hg.lp
  obtain ⟨st', r, he, rfl, rfl⟩ := tok_exec hx.resolveLp hst (step_inv hs)
  cases he with
  | send _ _ _ hx0 hv hb hf =>
    have hxf := (xfer_token (v := v) (dst := k.a) hst hx0 hb).flow hSa
    generalize hv1 : v.setState k.lt none (.token { st with balances := Token.moveBal st.balances S k.a x }) = v1 at hxf hr
    have hg1 := hg.keep hxf.keep
    simp only [frames, List.map_cons, List.map_nil, List.append_nil] at hr
    obtain ⟨m2, v2, fs2, rfl, hs2, hr2⟩ := run_cons_inv hr
    obtain ⟨w1, s', r, hmv, hir, hex, rfl, rfl⟩ := hg1.exec hra (step_inv hs2)
    rw [moveCoins_nil] at hmv
    subst hmv
    obtain ⟨rfl, _, hvS, p0, p1, lt, ti, ratio, r0, r1, hs⟩ := Pair.receive_withdraw_inv (funds := []) hex
    rw [setState_self_eq hg1.pair] at hr2
    have hlt := hs.h_lt
    rw [hx.lp] at hlt
    cases hlt
    obtain ⟨e0, e1, a0, a1, _, _⟩ := hg1.pools hx hs.h_pools
    obtain ⟨st1, hl, _⟩ := hg1.lp
    have hT := tokenInfo_supply hx.resolveLp hl hs.h_supply
    rw [hxf.keep.supply] at hT
    rw [hxf.other _ hx.lp0] at a0
    rw [hxf.other _ hx.lp1] at a1
    have hfr : frames k.a r = [.msg k.a (plain (({ info := p0.info, amount := r0 } : Asset).intoMsg S)),
        .msg k.a (plain (({ info := p1.info, amount := r1 } : Asset).intoMsg S)),
        .msg k.a (plain (.exec k.lt (.burn x) []))] := by rw [hs.h_resp]; rfl
    rw [hfr, e0, e1] at hr2
    simp only [replyFrame, List.append_nil] at hr2
    obtain ⟨m3, v3, fs3, rfl, hs3, hr3⟩ := run_cons_inv hr2
    obtain ⟨rfl, hx3⟩ := xfer_pay hg1.asset0 (fun t' ht' => hx.resolve_of (.inl rfl) ht') hS (step_inv hs3)
    have hg3 := hg1.keep hx3.keep
    rw [List.nil_append] at hr3
    obtain ⟨m4, v4, fs4, rfl, hs4, hr4⟩ := run_cons_inv hr3
    obtain ⟨rfl, hx4⟩ := xfer_pay hg3.asset1 (fun t' ht' => hx.resolve_of (.inr rfl) ht') hS (step_inv hs4)
    have hg4 := hg3.keep hx4.keep
    rw [List.nil_append] at hr4
    obtain ⟨m5, v5, fs5, rfl, hs5, hr5⟩ := run_cons_inv hr4
    obtain ⟨st5, hst5, _⟩ := hg4.lp
    obtain ⟨st6, r6, he6, rfl, rfl⟩ := tok_exec hx.resolveLp hst5 (step_inv hs5)
    cases he6 with
    | burn _ _ hb5 hs5' =>
      simp only [frames, List.map_nil, List.append_nil, run_nil, Except.ok.injEq, Prod.mk.injEq] at hr5
      obtain ⟨_, rfl⟩ := hr5
      have hratio := hs.h_ratio
      have hr0 := hs.h_r0
      have hr1 := hs.h_r1
      simp only [Uint128.decFromRatio_eq_ok] at hratio
      simp only [Uint128.mulDecimal_eq_ok] at hr0 hr1
      have hD : DF = 10 ^ 18 := by norm_num [DF]
      rw [hD] at hratio hr0 hr1
      rw [hT] at hratio
      refine ⟨r0, r1, _, v3, v4, ?_, ?_, hratio.1, hx3.pos, hx4.pos, hxf, hx3.flow (Ne.symm hSa),
        hx4.flow (Ne.symm hSa), burnt_of hst5 hx0 hb5 hs5', hg4.tokOnly (.set hst5 (fun _ => rfl))⟩
      · rw [hr0.2, hratio.2.2, a0]; rfl
      · rw [hr1.2, hratio.2.2, a1]; rfl

/-- Collecting one side of a deposit: a native asset came with the message, a token is drawn from the sender. -/
theorem Good.collect_exact {adv : Adv} {n n' : Nat} {v v' : World} {i : AssetInfo} {d : Nat} {S : Addr} (hg : k.Good v)
    (hx : k.Ctx c) (hi : i = k.i0 ∨ i = k.i1) (hne : S ≠ k.a)
    (h : run c adv n v ((Pair.collectMsg k.a S i d).map (fun m => .msg k.a (plain m))) = .ok (n', v')) :
    (i.isNative = true ∧ v' = v) ∨ (i.isNative = false ∧ Flow i S k.a d v v') := by
  cases i with
  | native dn =>
    simp only [Pair.collectMsg, List.map_nil, run_nil, Except.ok.injEq, Prod.mk.injEq] at h
    exact .inl ⟨rfl, h.2.symm⟩
  | token t =>
    simp only [Pair.collectMsg, List.map_cons, List.map_nil] at h ⊢
    obtain ⟨m, v1, fs1, rfl, hs, hr⟩ := run_cons_inv h
    obtain ⟨adm, st, hst⟩ := hg.honest hi t rfl
    obtain ⟨st', r, he, rfl, rfl⟩ := tok_exec (hx.resolve_of hi rfl) hst (step_inv hs)
    cases he with
    | transferFrom _ _ _ al hv ho ha hex hle hb hf =>
      simp only [frames, List.map_nil, List.append_nil, run_nil, Except.ok.injEq, Prod.mk.injEq] at hr
      rw [← hr.2]
      exact .inr ⟨rfl, flow_token _ hst hb hne⟩

/-- The exact effect of a deposit. -/
theorem Good.deposit_exact {adv : Adv} {n n' : Nat} {v v' : World} {S : Addr} {assets : Asset × Asset} {tol : Option Nat}
    {receiver : Option Str} {funds : List Coin}
    (hg : k.Good v) (hx : k.Ctx c) (hra : c.api.resolve k.a = .ok k.a) (hSa : S ≠ k.a)
    (h : run c adv n v [.msg S (plain (.exec k.a (.provideLiquidity assets tol receiver) funds))] = .ok (n', v')) :
    ∃ d0 d1 share v1 v2 v3, Pair.depositFor assets k.i0 = .ok d0 ∧ Pair.depositFor assets k.i1 = .ok d1 ∧
      assets.1.assertSent funds = .ok () ∧ assets.2.assertSent funds = .ok () ∧ (funds.map Coin.denom).Nodup ∧
      (ExecMsg.provideLiquidity assets tol receiver).inRange = true ∧
      Pair.assertSlippageTolerance tol (d0, d1) (held v k.i0 k.a, held v k.i1 k.a) = .ok () ∧
      Pair.shareFor k.s.requirements S (supplyAt v k.lt) (d0, d1) (held v k.i0 k.a, held v k.i1 k.a) = .ok share ∧
      Moved v v1 S k.a funds ∧
      ((k.i0.isNative = true ∧ v2 = v1) ∨ (k.i0.isNative = false ∧ Flow k.i0 S k.a d0 v1 v2)) ∧
      ((k.i1.isNative = true ∧ v3 = v2) ∨ (k.i1.isNative = false ∧ Flow k.i1 S k.a d1 v2 v3)) ∧
      Minted k.lt (receiver.getD S) share v3 v' ∧ k.Good v' := by
  obtain ⟨m, v0, fs0, rfl, hs0, hr⟩ := run_cons_inv h
  obtain ⟨w1, s', r, hmv, hir, hex, rfl, rfl⟩ := hg.exec hra (step_inv hs0)
  have hm := moveCoins_inv hmv
  have hnd : (funds.map Coin.denom).Nodup := by
    unfold moveCoins at hmv
    simp only [bind_eq_ok, require_eq_ok] at hmv
    obtain ⟨_, h1, _⟩ := hmv
    simpa using h1
  have hg1 : k.Good w1 := hg.tokOnly (fun b => .inl (congrFun hm.contracts b))
  simp only [Pair.execute] at hex
  obtain ⟨rfl, p0, p1, d0, d1, lt, ti, share, hs⟩ := Pair.provide_inv hex
  rw [hg.setState_adm hm.contracts] at hr
  have hlt := hs.h_lt
  rw [hx.lp] at hlt
  cases hlt
  obtain ⟨e0, e1, a0, a1, _, _⟩ := hg1.pools hx hs.h_pools
  obtain ⟨st, hl, _⟩ := hg1.lp
  have hT := tokenInfo_supply hx.resolveLp hl hs.h_supply
  have hT' : supplyAt w1 k.lt = supplyAt v k.lt := supplyAt_congr (congrFun hm.contracts _)
  have arrived : ∀ i d, Pair.depositFor assets i = .ok d →
      held w1 i k.a = held v i k.a + (if i.isNative then d else 0) := by
    intro i d hd
    cases i with
    | token t =>
      simp only [AssetInfo.isNative, Bool.false_eq_true, ↓reduceIte, Nat.add_zero]
      exact held_congr (fun _ h => by cases h) (fun t _ => congrFun hm.contracts t)
    | native dn =>
      have : coinSum dn funds = d := by
        rcases Pair.depositFor_eq_ok.mp hd with ⟨h1, rfl⟩ | ⟨_, h1, rfl⟩
        · exact coinSum_of_sent hnd h1 hs.h_sent0
        · exact coinSum_of_sent hnd h1 hs.h_sent1
      simp only [held, AssetInfo.isNative, ↓reduceIte]
      rw [hm.dst_bal hSa, this]
  have q0 := arrived _ _ hs.h_d0
  have q1 := arrived _ _ hs.h_d1
  have prior : ∀ (p : Asset) d, p.amount = held v p.info k.a + (if p.info.isNative then d else 0) →
      Pair.priorPool p d = held v p.info k.a := by
    intro p d hp
    unfold Pair.priorPool
    cases hi : p.info with
    | token t => rw [hi] at hp; simpa [AssetInfo.isNative] using hp
    | native dn => rw [hi] at hp; simp only [AssetInfo.isNative, ↓reduceIte] at hp ⊢; omega
  have t0 := prior p0 d0 (by rw [← q0, e0, a0])
  have t1 := prior p1 d1 (by rw [← q1, e1, a1])
  have hd0 := hs.h_d0
  have hd1 := hs.h_d1
  have hslip := hs.h_slippage
  have hshare := hs.h_share
  rw [t0, t1, e0, e1] at hslip hshare
  rw [hT, hT'] at hshare
  rw [e0] at hd0
  rw [e1] at hd1
  have hfr : frames k.a r = (Pair.collectMsg k.a S k.i0 d0).map (fun m => .msg k.a (plain m)) ++
      ((Pair.collectMsg k.a S k.i1 d1).map (fun m => .msg k.a (plain m)) ++
        [.msg k.a (plain (.exec k.lt (.mint (receiver.getD S) share) []))]) := by
    rw [hs.h_resp, e0, e1]
    simp [frames, List.map_append, Function.comp_def]
  rw [hfr] at hr
  simp only [replyFrame, List.append_nil] at hr
  obtain ⟨m1, v1, hr1, hr2⟩ := run_append.mp hr
  obtain ⟨m2, v2, hr2, hr3⟩ := run_append.mp hr2
  have f1 := hg1.collect_exact hx (.inl rfl) hSa hr1
  have g1 : k.Good v1 := by
    rcases f1 with ⟨_, rfl⟩ | ⟨_, f⟩
    exacts [hg1, hg1.keep f.keep]
  have f2 := g1.collect_exact hx (.inr rfl) hSa hr2
  have g2 : k.Good v2 := by
    rcases f2 with ⟨_, rfl⟩ | ⟨_, f⟩
    exacts [g1, g1.keep f.keep]
  obtain ⟨m3, v3, fs3, rfl, hs3, hr3⟩ := run_cons_inv hr3
  obtain ⟨st2, hl2, _⟩ := g2.lp
  obtain ⟨st3, r3, he, rfl, rfl⟩ := tok_exec hx.resolveLp hl2 (step_inv hs3)
  cases he with
  | mint _ _ md hx0 hv hmd hsd hf hcap hb =>
    simp only [frames, List.map_nil, List.append_nil, run_nil, Except.ok.injEq, Prod.mk.injEq] at hr3
    obtain ⟨_, rfl⟩ := hr3
    exact ⟨d0, d1, share, w1, v1, v2, hd0, hd1, hs.h_sent0, hs.h_sent1, hnd, hir, hslip, hshare, hm, f1, f2,
      minted_of hl2 hx0, g2.tokOnly (.set hl2 (fun _ => rfl))⟩

end PairSite
end Halo
