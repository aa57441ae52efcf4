import Verif.Lemmas.PoolRun
/-! # Exact effect of transfers and swaps on all balances (helper lemmas for C07, C35, C36) -/

namespace Halo
open _root_.Halo.Spec

/-- All contracts stay as they are, except for balances and allowances inside tokens. -/
def TokKeep (v v' : World) : Prop :=
  ∀ b, v'.contracts b = v.contracts b ∨ ∃ adm st st', v.contracts b = some ⟨adm, .token st⟩ ∧
    v'.contracts b = some ⟨adm, .token st'⟩ ∧ st'.mint = st.mint ∧ st'.totalSupply = st.totalSupply

theorem TokKeep.refl (v : World) : TokKeep v v := fun _ => .inl rfl

theorem TokKeep.trans {u v w : World} (h1 : TokKeep u v) (h2 : TokKeep v w) : TokKeep u w := by
  intro b
  rcases h2 b with e2 | ⟨adm, st, st', a, a', m, s⟩
  · rcases h1 b with e1 | ⟨adm, st, st', a, a', m, s⟩
    · exact .inl (e2.trans e1)
    · exact .inr ⟨adm, st, st', a, e2.trans a', m, s⟩
  · rcases h1 b with e1 | ⟨adm1, st1, st1', b1, b1', m1, s1⟩
    · exact .inr ⟨adm, st, st', e1 ▸ a, a', m, s⟩
    · rw [a] at b1'
      cases b1'
      exact .inr ⟨_, _, _, b1, a', m.trans m1, s.trans s1⟩

theorem TokKeep.honest {v v' : World} (h : TokKeep v v') {i : AssetInfo} (hi : Honest v i) : Honest v' i := by
  intro t ht
  obtain ⟨adm, st, hst⟩ := hi t ht
  rcases h t with h1 | ⟨adm', st1, st2, h1, h2, _⟩
  · exact ⟨adm, st, h1.trans hst⟩
  · exact ⟨_, _, h2⟩

theorem TokKeep.contracts {v v' : World} (h : TokKeep v v') {a : Addr} {adm : Option Addr} {s : CState}
    (hc : v.contracts a = some ⟨adm, s⟩) (hs : ∀ st, s ≠ .token st) : v'.contracts a = some ⟨adm, s⟩ := by
  rcases h a with h1 | ⟨_, _, _, h1, _⟩
  · exact h1.trans hc
  · rw [hc] at h1
    cases h1
    exact absurd rfl (hs _)

/-- `x` of the asset `i` moved from `src` to `dst`; nothing else changed. -/
structure Xfer (i : AssetInfo) (src dst : Addr) (x : Nat) (v v' : World) : Prop where
  le : x ≤ held v i src
  pos : x ≠ 0
  bal : src ≠ dst → held v' i src = held v i src - x ∧ held v' i dst = held v i dst + x
  same : src = dst → held v' i src = held v i src
  rest : ∀ b, b ≠ src → b ≠ dst → held v' i b = held v i b
  other : ∀ j, j ≠ i → ∀ b, held v' j b = held v j b
  keep : TokKeep v v'

/-- Balances of accounts not involved stay. -/
theorem Xfer.outside {i : AssetInfo} {src dst : Addr} {x : Nat} {v v' : World} (h : Xfer i src dst x v v') {b : Addr}
    (h1 : b ≠ src) (h2 : b ≠ dst) (j : AssetInfo) : held v' j b = held v j b := by
  by_cases hj : j = i
  · subst hj; exact h.rest b h1 h2
  · exact h.other j hj b

/-- The effect of moving balances inside a token. -/
theorem xfer_token {v : World} {t : Addr} {adm : Option Addr} {st : TokenState} {src dst : Addr} {x : Nat}
    (ht : v.contracts t = some ⟨adm, .token st⟩) (hx : x ≠ 0) (hb : x ≤ st.balances.getD0 src) :
    Xfer (.token t) src dst x v (v.setState t adm (.token { st with balances := Token.moveBal st.balances src dst x })) := by
  have e2 : (v.setState t adm (.token { st with balances := Token.moveBal st.balances src dst x })).contracts t =
    some ⟨adm, .token { st with balances := Token.moveBal st.balances src dst x }⟩ := setContract_self _ _ _
  refine ⟨by rw [held_token ht]; exact hb, hx, ?_, ?_, ?_, ?_, ?_⟩
  · intro hne
    rw [held_token e2, held_token e2, held_token ht, held_token ht, Token.moveBal_get, Token.moveBal_get]
    simp [hne, Ne.symm hne]
  · rintro rfl
    rw [held_token e2, held_token ht, Token.moveBal_get]
    simp only [if_true]
    omega
  · intro b h1 h2
    rw [held_token e2, held_token ht, Token.moveBal_get]
    simp [h1, h2]
  · intro j hj b
    refine held_congr (fun _ _ => rfl) (fun t' ht' => setContract_ne _ _ ?_)
    rintro rfl
    exact hj ht'
  · intro b
    by_cases hbt : b = t
    · subst hbt
      exact .inr ⟨adm, st, _, ht, setContract_self _ _ _, rfl, rfl⟩
    · exact .inl (setContract_ne _ _ hbt)

/-- Paying an asset out of an account to the account with a given name, as a message. -/
theorem xfer_pay_to {c : Chain} {adv : Adv} {n : Nat} {v v' : World} {fs : List Frame} {i : AssetInfo} {x : Nat}
    {src : Addr} {dst : Str} (hi : Honest v i) (hr : ∀ t, i = .token t → c.api.resolve t = .ok t)
    (h : StepI c adv n v (.msg src (plain (({ info := i, amount := x } : Asset).intoMsg dst))) v' fs) :
    fs = [] ∧ ∃ d, c.api.resolve dst = .ok d ∧ Xfer i src d x v v' := by
  cases i with
  | native d =>
    simp only [Asset.intoMsg, plain] at h
    generalize hf : (⟨.bankSend dst [⟨d, x⟩], none⟩ : SubMsg) = sm at h
    cases h with
    | bank sender to_ coins id b w' hne hdst hmv =>
      cases hf
      have hm := moveCoins_inv hmv
      have hpos : x ≠ 0 := by
        simp only [moveCoins, bind_eq_ok, moveCoinsLoop] at hmv
        obtain ⟨_, _, w1, h1, _⟩ := hmv
        exact (moveCoin_inv h1).2.2.2.1
      have hle : x ≤ v.bal d src := by
        simp only [moveCoins, bind_eq_ok, moveCoinsLoop] at hmv
        obtain ⟨_, _, w1, h1, _⟩ := hmv
        exact (moveCoin_inv h1).2.2.2.2.1
      refine ⟨rfl, b, hdst, hle, hpos, ?_, ?_, ?_, ?_, fun b => .inl (congrFun hm.contracts b)⟩
      · intro hne
        have h1 := hm.src_bal hne d
        have h2 := hm.dst_bal hne d
        simp only [coinSum, ↓reduceIte] at h1 h2
        simp only [held]
        omega
      · intro he
        exact hm.same he d src
      · intro e h1 h2
        exact hm.others d e h1 h2
      · intro j hj e
        refine held_congr (fun d' hd' => ?_) (fun t _ => congrFun hm.contracts t)
        have hdd : d ≠ d' := by rintro rfl; exact hj hd'
        by_cases he : src = b
        · exact hm.same he _ _
        · by_cases b1 : e = src
          · subst b1
            have := hm.src_bal he d'
            simp only [coinSum, hdd, ↓reduceIte] at this
            omega
          · by_cases b2 : e = b
            · subst b2
              have := hm.dst_bal he d'
              simp only [coinSum, hdd, ↓reduceIte] at this
              omega
            · exact hm.others _ _ b1 b2
    | token | pair | factory | router | other | inst | migrate | admin => cases hf
  | token t =>
    simp only [Asset.intoMsg] at h
    obtain ⟨adm, st, hst⟩ := hi t rfl
    obtain ⟨st', r, he, rfl, rfl⟩ := tok_exec (hr t rfl) hst h
    cases he with
    | transfer _ _ hx0 hv hb hf =>
      obtain ⟨_, y, h1, h2⟩ := validate_eq_ok.mp hv
      exact ⟨rfl, dst, resolve_eq_ok.mpr ⟨y, h1, h2⟩, xfer_token hst hx0 hb⟩

/-- Paying an asset out of an account, as a message. -/
theorem xfer_pay {c : Chain} {adv : Adv} {n : Nat} {v v' : World} {fs : List Frame} {i : AssetInfo} {x : Nat}
    {src dst : Addr} (hi : Honest v i) (hr : ∀ t, i = .token t → c.api.resolve t = .ok t)
    (hd : c.api.resolve dst = .ok dst)
    (h : StepI c adv n v (.msg src (plain (({ info := i, amount := x } : Asset).intoMsg dst))) v' fs) :
    fs = [] ∧ Xfer i src dst x v v' := by
  obtain ⟨h1, d, h2, h3⟩ := xfer_pay_to hi hr h
  rw [hd] at h2
  cases h2
  exact ⟨h1, h3⟩

/-- Sending tokens along with a message: the tokens move, then the message is delivered. -/
theorem send_inv {c : Chain} {adv : Adv} {n n' : Nat} {v v' : World} {S t : Addr} {x : Nat} {dst : Str} {hk : HookMsg}
    (hi : Honest v (.token t)) (hr : c.api.resolve t = .ok t)
    (h : run c adv n v [.msg S (plain (.exec t (.send dst x hk) []))] = .ok (n', v')) :
    ∃ m v1, n = m + 1 ∧ Xfer (.token t) S dst x v v1 ∧
      run c adv m v1 [.msg t (plain (.exec dst (.receive S x hk) []))] = .ok (n', v') := by
  obtain ⟨m, v1, fs1, rfl, hs, hrun⟩ := run_cons_inv h
  obtain ⟨adm, st, hst⟩ := hi t rfl
  obtain ⟨st', r, he, rfl, rfl⟩ := tok_exec hr hst (step_inv hs)
  cases he with
  | send _ _ _ hx0 hv hb hf =>
    refine ⟨m, _, rfl, xfer_token hst hx0 hb, ?_⟩
    simpa [frames, plain] using hrun

namespace PairSite
variable {c : Chain} {k : PairSite}

/-- The pair trades `i` for `j`. -/
def Dir (k : PairSite) (i j : AssetInfo) : Prop := (k.i0 = i ∧ k.i1 = j) ∨ (k.i1 = i ∧ k.i0 = j)

theorem Dir.fst {i j : AssetInfo} (h : k.Dir i j) : i = k.i0 ∨ i = k.i1 := by
  rcases h with ⟨h, _⟩ | ⟨h, _⟩
  exacts [.inl h.symm, .inr h.symm]

theorem Dir.snd {i j : AssetInfo} (h : k.Dir i j) : j = k.i0 ∨ j = k.i1 := by
  rcases h with ⟨_, h⟩ | ⟨_, h⟩
  exacts [.inr h.symm, .inl h.symm]

theorem Dir.ne {i j : AssetInfo} (h : k.Dir i j) (hx : k.Ctx c) : i ≠ j := by
  rcases h with ⟨rfl, rfl⟩ | ⟨rfl, rfl⟩
  exacts [hx.ne, Ne.symm hx.ne]

theorem Good.keep {v v' : World} (hg : k.Good v) (h : TokKeep v v') : k.Good v' := by
  refine hg.tokOnly fun b => ?_
  rcases h b with h | ⟨adm, st, st', a, a', m, _⟩
  · exact .inl h
  · exact .inr ⟨adm, st, st', a, a', fun _ => m⟩

/-- What the pair answers to a swap request by the token `t`, in terms of its balances. -/
theorem Good.swap_resp {q : Querier} {v : World} {t : Addr} {sender : Str} {x : Nat} {bp ms : Option Nat}
    {dst : Option Str} {s' : Pair.State} {r : Response} (hg : k.Good v) (hx : k.Ctx c) {j : AssetInfo}
    (hd : k.Dir (.token t) j)
    (h : Pair.receiveCw20 c.api (querier c q v) k.a k.s t [] sender x (.swap bp ms dst) = .ok (s', r)) :
    s' = k.s ∧ (∀ s, dst = some s → c.api.validate s = .ok s) ∧ ∃ ret sp cm, x ≤ held v (.token t) k.a ∧
      Pair.computeSwap (held v (.token t) k.a - x) (held v j k.a) x = .ok (ret, sp, cm) ∧
      r = { messages := if ret ≠ 0 then [plain (({ info := j, amount := ret } : Asset).intoMsg (dst.getD sender))] else [],
            events := [.swap sender (dst.getD sender) (.token t) j x ret sp cm] } := by
  obtain ⟨rfl, hv, o, a, od, ad, ret, sp, cm, hs⟩ := Pair.receive_swap_inv (funds := []) h
  refine ⟨rfl, hv, ret, sp, cm, ?_⟩
  have hio : o.info = .token t := hs.h_info.symm
  have hle : x ≤ o.amount := hs.h_le
  have hpr : Pair.computeSwap (o.amount - x) a.amount x = .ok (ret, sp, cm) := hs.h_price
  have hres := hs.h_resp
  simp only at hres
  rcases hs.h_pools with ⟨hq, _⟩ | ⟨hq, _⟩
  · obtain ⟨e0, e1, a0, a1, _, _⟩ := hg.pools hx hq
    rcases hd with ⟨d0, d1⟩ | ⟨d0, d1⟩
    · rw [d0] at a0
      rw [d1] at a1 e1
      rw [a0] at hle hpr
      rw [a1] at hpr
      rw [e1] at hres
      exact ⟨hle, hpr, hres⟩
    · exact absurd ((e0.symm.trans hio).trans d0.symm) hx.ne
  · obtain ⟨e0, e1, a0, a1, _, _⟩ := hg.pools hx hq
    rcases hd with ⟨d0, d1⟩ | ⟨d0, d1⟩
    · exact absurd (d0.trans (e1.symm.trans hio).symm) hx.ne
    · rw [d0] at a1
      rw [d1] at a0 e0
      rw [a1] at hle hpr
      rw [a0] at hpr
      rw [e0] at hres
      exact ⟨hle, hpr, hres⟩

/-- The reserves a swap is computed from are 128-bit numbers. -/
theorem Good.swap_bounds {q : Querier} {v : World} {t : Addr} {sender : Str} {x : Nat} {bp ms : Option Nat}
    {dst : Option Str} {s' : Pair.State} {r : Response} (hg : k.Good v) (hx : k.Ctx c) {j : AssetInfo}
    (hd : k.Dir (.token t) j)
    (h : Pair.receiveCw20 c.api (querier c q v) k.a k.s t [] sender x (.swap bp ms dst) = .ok (s', r)) :
    held v (.token t) k.a < B128 ∧ held v j k.a < B128 := by
  obtain ⟨_, _, o, a, od, ad, ret, sp, cm, hs⟩ := Pair.receive_swap_inv (funds := []) h
  have key : held v k.i0 k.a < B128 ∧ held v k.i1 k.a < B128 := by
    rcases hs.h_pools with ⟨hq, _⟩ | ⟨hq, _⟩
    all_goals
      obtain ⟨_, _, a0, a1, b0, b1⟩ := hg.pools hx hq
      rw [a0] at b0
      rw [a1] at b1
      exact ⟨b0, b1⟩
  rcases hd with ⟨d0, d1⟩ | ⟨d0, d1⟩
  · rw [← d0, ← d1]; exact key
  · rw [← d0, ← d1]; exact key.symm

theorem resolve_of_validate {api : Api} {s : Str} (h : api.validate s = .ok s) : api.resolve s = .ok s := by
  obtain ⟨_, b, h1, h2⟩ := validate_eq_ok.mp h
  exact resolve_eq_ok.mpr ⟨b, h1, h2⟩

/-- The exact effect of sending `x` of an asset token to the pair with a swap request. -/
theorem Good.swap_exact' {adv : Adv} {n n' : Nat} {v v' : World} {S t : Addr} {x : Nat} {bp ms : Option Nat}
    {dst : Option Str} (hg : k.Good v) (hx : k.Ctx c) (hra : c.api.resolve k.a = .ok k.a)
    (hS : c.api.resolve S = .ok S) (hSa : S ≠ k.a) {j : AssetInfo} (hd : k.Dir (.token t) j)
    (h : run c adv n v [.msg S (plain (.exec t (.send k.a x (.swap bp ms dst)) []))] = .ok (n', v')) :
    ∃ ret sp cm v1, (held v (.token t) k.a + x < B128 ∧ held v j k.a < B128) ∧
      Pair.computeSwap (held v (.token t) k.a) (held v j k.a) x = .ok (ret, sp, cm) ∧
      Xfer (.token t) S k.a x v v1 ∧
      ((ret = 0 ∧ v' = v1) ∨ (ret ≠ 0 ∧ Xfer j k.a (dst.getD S) ret v1 v')) := by
  obtain ⟨m, v1, fs1, rfl, hs, hr⟩ := run_cons_inv h
  obtain ⟨adm, st, hst⟩ := hg.honest hd.fst t rfl
  obtain ⟨st', r, he, rfl, rfl⟩ := tok_exec (hx.resolve_of hd.fst rfl) hst (step_inv hs)
  cases he with
  | send _ _ _ hx0 hv hb hf =>
    have hxf := xfer_token (v := v) (dst := k.a) hst hx0 hb
    generalize hv1 : v.setState t adm (.token { st with balances := Token.moveBal st.balances S k.a x }) = v1 at hxf hr
    have hg1 := hg.keep hxf.keep
    simp only [frames, List.map_cons, List.map_nil, List.append_nil] at hr
    obtain ⟨m2, v2, fs2, rfl, hs2, hr2⟩ := run_cons_inv hr
    obtain ⟨w1, s', r, hmv, hir, hex, rfl, rfl⟩ := hg1.exec hra (step_inv hs2)
    rw [moveCoins_nil] at hmv
    subst hmv
    have hbd := hg1.swap_bounds hx hd hex
    obtain ⟨rfl, hvd, ret, sp, cm, hle, hpr, rfl⟩ := hg1.swap_resp hx hd hex
    have e1 := (hxf.bal hSa).2
    have e2 := hxf.other j (Ne.symm (hd.ne hx)) k.a
    rw [e1, e2, Nat.add_sub_cancel] at hpr
    rw [e1, e2] at hbd
    refine ⟨ret, sp, cm, _, hbd, hpr, hxf, ?_⟩
    rw [setState_self_eq hg1.pair] at hr2
    by_cases h0 : ret = 0
    · simp only [h0, ne_eq, not_true_eq_false, ↓reduceIte, frames, List.map_nil, replyFrame, List.append_nil, run_nil,
        Except.ok.injEq, Prod.mk.injEq] at hr2
      exact .inl ⟨h0, hr2.2.symm⟩
    · simp only [ne_eq, h0, not_false_eq_true, ↓reduceIte, frames, List.map_cons, List.map_nil, replyFrame,
        List.append_nil] at hr2
      obtain ⟨m3, v3, fs3, rfl, hs3, hr3⟩ := run_cons_inv hr2
      have hdst : c.api.resolve (dst.getD S) = .ok (dst.getD S) := by
        cases dst with
        | none => exact hS
        | some d => exact resolve_of_validate (hvd d rfl)
      obtain ⟨rfl, hx3⟩ := xfer_pay (hg1.honest hd.snd) (fun t' ht' => hx.resolve_of hd.snd ht') hdst (step_inv hs3)
      simp only [List.append_nil, run_nil, Except.ok.injEq, Prod.mk.injEq] at hr3
      rw [← hr3.2]
      exact .inr ⟨h0, hx3⟩

theorem Good.swap_exact {adv : Adv} {n n' : Nat} {v v' : World} {S t : Addr} {x : Nat} {bp ms : Option Nat}
    {dst : Option Str} (hg : k.Good v) (hx : k.Ctx c) (hra : c.api.resolve k.a = .ok k.a)
    (hS : c.api.resolve S = .ok S) (hSa : S ≠ k.a) {j : AssetInfo} (hd : k.Dir (.token t) j)
    (h : run c adv n v [.msg S (plain (.exec t (.send k.a x (.swap bp ms dst)) []))] = .ok (n', v')) :
    ∃ ret sp cm v1, Pair.computeSwap (held v (.token t) k.a) (held v j k.a) x = .ok (ret, sp, cm) ∧
      Xfer (.token t) S k.a x v v1 ∧
      ((ret = 0 ∧ v' = v1) ∨ (ret ≠ 0 ∧ Xfer j k.a (dst.getD S) ret v1 v')) := by
  obtain ⟨ret, sp, cm, v1, _, h1⟩ := hg.swap_exact' hx hra hS hSa hd h
  exact ⟨ret, sp, cm, v1, h1⟩

/-- What a simulation query computes. -/
theorem Good.simulated' {q : Querier} {v : World} {i j : AssetInfo} {x : Nat} {resp : SimResp} (hg : k.Good v)
    (hx : k.Ctx c) (hra : c.api.human k.s.contractAddr = some k.a) (hd : k.Dir i j)
    (h : Pair.querySimulation c.api (baseQuerier c q v) k.s ⟨i, x⟩ = .ok resp) :
    held v i k.a < B128 ∧ held v j k.a < B128 ∧
      Pair.computeSwap (held v i k.a) (held v j k.a) x = .ok (resp.amount, resp.spread, resp.commission) := by
  simp only [Pair.querySimulation, bind_eq_ok, pure_eq_ok, Prod.exists, humanize_eq_ok] at h
  obtain ⟨ca, h1, p0, p1, h2, o, a, od, ad, h3, r, s, cm, h4, rfl⟩ := h
  rw [hra] at h1
  cases h1
  obtain ⟨e0, e1, a0, a1, b0, b1⟩ := hg.pools hx (q := q) h2
  rw [Pair.pick_eq_ok] at h3
  simp only at h3
  rcases h3 with ⟨hi, rfl, rfl, _⟩ | ⟨hne, hi, rfl, rfl, _⟩
  · rcases hd with ⟨d0, d1⟩ | ⟨d0, d1⟩
    · rw [← d0, ← d1, ← a0, ← a1]; exact ⟨b0, b1, h4⟩
    · exact absurd (e0.symm.trans (hi.symm.trans d0.symm)) hx.ne
  · rcases hd with ⟨d0, d1⟩ | ⟨d0, d1⟩
    · exact absurd (d0.symm.trans e0.symm) hne
    · rw [← d0, ← d1, ← a0, ← a1]; exact ⟨b1, b0, h4⟩

theorem Good.simulated {q : Querier} {v : World} {i j : AssetInfo} {x : Nat} {resp : SimResp} (hg : k.Good v)
    (hx : k.Ctx c) (hra : c.api.human k.s.contractAddr = some k.a) (hd : k.Dir i j)
    (h : Pair.querySimulation c.api (baseQuerier c q v) k.s ⟨i, x⟩ = .ok resp) :
    Pair.computeSwap (held v i k.a) (held v j k.a) x = .ok (resp.amount, resp.spread, resp.commission) :=
  (hg.simulated' hx hra hd h).2.2

end PairSite
end Halo
