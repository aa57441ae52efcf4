import Verif.Lemmas.CreateL
import Verif.Spec.Create
/-! # One `CreatePair` transaction, step by step (helper lemmas for C53) -/

namespace Halo

theorem decimalsIn {c : Chain} {q : Querier} {w : World} {a : Addr} {adm : Option Addr} {s : Factory.State}
    (hva : c.api.resolve a = .ok a) (ha : w.contracts a = some ⟨adm, .factory s⟩) {i : AssetInfo} {n : Nat}
    (h : i.queryDecimals (querier c q w) a = .ok n) : DecimalsIn c w s i n := by
  cases i with
  | native d =>
    simp only [AssetInfo.queryDecimals, querier, baseQuerier, lookState, hva, bind_eq_ok, Except.ok.injEq, okOr_eq_ok,
      pure_eq_ok] at h
    obtain ⟨_, ⟨_, rfl, _, hk, rfl⟩, h⟩ := h
    rw [ha] at hk
    cases hk
    simp only [chk8, Factory.queryNativeTokenDecimals, bind_eq_ok, okOr_eq_ok, pure_eq_ok] at h
    obtain ⟨_, h, _, _, rfl⟩ := h
    exact h
  | token t =>
    simp only [AssetInfo.queryDecimals, querier, baseQuerier, lookState, bind_eq_ok, okOr_eq_ok, pure_eq_ok] at h
    obtain ⟨ti, ⟨st, ⟨x, hx, k, hk, rfl⟩, h⟩, rfl⟩ := h
    refine ⟨x, k, hx, hk, fun ts hts => ?_⟩
    rw [hts] at h
    simp only [chkTI, Token.queryTokenInfo, bind_eq_ok, Except.ok.injEq, pure_eq_ok] at h
    obtain ⟨_, rfl, _, _, rfl⟩ := h
    rfl

theorem create_run {c : Chain} (hl : c.Lawful) {w w' : World} (hw : Reachable c w) {adv : Adv} {gas n' : Nat}
    {sender : Addr} {target : Str} {as : AssetInfo × AssetInfo} {req : Requirements} {funds : List Coin} {a : Addr}
    {adm : Option Addr} {s : Factory.State} (ht : c.api.resolve target = .ok a)
    (ha : w.contracts a = some ⟨adm, .factory s⟩) (hpc : c.codes s.config.pairCodeId ≠ some .other)
    (htc : c.codes s.config.tokenCodeId ≠ some .other)
    (h : run c adv gas w [.msg sender (plain (.exec target (.createPair as req) funds))] = .ok (n', w')) :
    ∃ w1, moveCoins w sender a funds = .ok w1 ∧ w'.bank = w1.bank ∧
      ∃ e, Created c w w' a adm s as req (c.addrOf w.next) (c.addrOf (w.next + 1)) e := by
  have hok := (hw.factoriesOk (Q := fun _ => True) (fun _ _ _ _ _ _ _ => trivial)) a adm s ha
  obtain ⟨ka, hka, hak⟩ := hw.contractsAt _ _ ha
  have hva : c.api.resolve a = .ok a := by rw [hak]; exact hl.resolve_addr _
  obtain ⟨m1, w1, fs1, rfl, h1, h⟩ := run_cons_inv h
  have h1 := step_inv h1
  generalize hf : (plain (CosmosMsg.exec target (.createPair as req) funds)) = sm at h1
  cases h1 with
  | bank => cases hf
  | inst => cases hf
  | migrate => cases hf
  | admin => cases hf
  | token _ _ _ _ _ me w2 admin s1 s1' r hme hm hr hc hx => cases hf; rw [ht] at hme; cases hme; rw [ha] at hc; cases hc
  | pair _ _ _ _ _ me w2 admin s1 s1' r hme hm hr hc hx => cases hf; rw [ht] at hme; cases hme; rw [ha] at hc; cases hc
  | router _ _ _ _ _ me w2 admin s1 s1' r hme hm hr hc hx => cases hf; rw [ht] at hme; cases hme; rw [ha] at hc; cases hc
  | other _ _ _ _ _ me w2 admin ms hme hm hc => cases hf; rw [ht] at hme; cases hme; rw [ha] at hc; cases hc
  | factory _ _ _ _ _ me w2 admin s1 s1' r hme hm hr hc hx =>
    cases hf
    rw [ht] at hme; cases hme
    rw [ha] at hc; cases hc
    have hmv := moveCoins_inv hm
    have ha2 : w2.contracts a = some ⟨adm, .factory s⟩ := by rw [hmv.contracts]; exact ha
    cases Factory.execute_inv hx with
    | create _ _ d0 d1 r0 r1 hne hd0 hd1 hr0 hr1 hnew =>
    have hw2 : ∀ i d, DecimalsIn c w2 s i d → DecimalsIn c w s i d := by
      intro i d hi
      cases i with
      | native => exact hi
      | token => simpa only [DecimalsIn, hmv.contracts] using hi
    have dd0 := hw2 _ _ (decimalsIn hva ha2 hd0)
    have dd1 := hw2 _ _ (decimalsIn hva ha2 hd1)
    clear hd0 hd1
    refine ⟨w2, hm, ?_⟩
    simp only [frames, List.map_cons, List.map_nil, replyFrame, List.append_nil] at h
    generalize hv1 : w2.setState a adm _ = v1 at h
    have c1 : v1.contracts a = some ⟨adm, .factory { s with tmp := some ⟨Factory.pairKey (r0, r1), (r0, r1), (d0, d1)⟩ }⟩ := by
      rw [← hv1]; exact setContract_self _ _ _
    have o1 : ∀ b, b ≠ a → v1.contracts b = w.contracts b := fun b hb => by
      rw [← hv1, ← hmv.contracts]; exact setContract_ne _ _ hb
    have n1 : v1.next = w.next := by rw [← hv1, ← hmv.next]; rfl
    have b1 : v1.bank = w2.bank := by rw [← hv1]; rfl
    clear hv1
    -- the pair is instantiated
    obtain ⟨m2, v2, fs2, rfl, h2, h⟩ := run_cons_inv h
    cases step_inv h2 with
    | inst _ _ _ _ _ _ kk adm2 u2 st2 gs2 hk hadm hnone hmv2 hx2 =>
    rw [moveCoins_nil] at hmv2
    subst hmv2
    obtain ⟨ca, q0, q1, g1, g2, g3, rfl, rfl⟩ := callInstantiate_pairMsg (by rintro rfl; exact hpc hk) hx2
    rw [hr0] at g2; cases g2
    rw [hr1] at g3; cases g3
    simp only [resolveAdmin, bind_eq_ok, pure_eq_ok] at hadm
    obtain ⟨a2, hadm, rfl⟩ := hadm
    rw [hva] at hadm
    cases hadm
    simp only [replyFrame, List.cons_append, List.nil_append, List.append_nil] at h
    generalize hv2 : World.setContract _ _ _ = v2 at h
    rw [n1] at *
    have hap : a ≠ c.addrOf w.next := by rintro e; rw [← e, c1] at hnone; cases hnone
    have p2 : v2.contracts (c.addrOf w.next) = some ⟨some a, .pair ⟨(r0, r1), ca, [], (d0, d1), req⟩⟩ := by
      rw [← hv2]; exact setContract_self _ _ _
    have o2 : ∀ b, b ≠ c.addrOf w.next → v2.contracts b = v1.contracts b := fun b hb => by
      rw [← hv2]; exact setContract_ne _ _ hb
    have n2 : v2.next = w.next + 1 := by rw [← hv2]; rfl
    have b2 : v2.bank = w2.bank := by rw [← hv2, ← b1]; rfl
    clear hv2 h2
    have hwp : w.contracts (c.addrOf w.next) = none := by rw [← o1 _ (Ne.symm hap)]; exact hnone
    -- the LP token is instantiated
    obtain ⟨m3, v3, fs3, rfl, h3, h⟩ := run_cons_inv h
    cases step_inv h3 with
    | inst _ _ _ _ _ _ kk3 adm3 u3 st3 gs3 hk3 hadm3 hnone3 hmv3 hx3 =>
    rw [moveCoins_nil] at hmv3
    subst hmv3
    simp only [resolveAdmin, Except.ok.injEq] at hadm3
    subst hadm3
    have htok : ∃ ts, st3 = .token ts ∧ gs3 = [] ∧ Token.instantiate c.api (Pair.lpInst (c.addrOf w.next)) = .ok ts := by
      cases kk3 <;> simp only [callInstantiate, bind_eq_ok, pure_eq_ok, Prod.mk.injEq, reduceCtorEq, and_false,
        exists_false] at hx3
      · obtain ⟨_, _, ts, h5, rfl, rfl⟩ := hx3
        exact ⟨ts, rfl, rfl, h5⟩
      · exact absurd hk3 htc
    obtain ⟨ts, rfl, rfl, hts⟩ := htok
    obtain ⟨t1, t2, t3, t4, t5, _, t6, _⟩ := Token.instantiate_inv hts
    simp only [replyFrame, List.cons_append, List.nil_append] at h
    generalize hv3 : World.setContract _ _ _ = v3 at h
    rw [n2] at *
    have hpl : c.addrOf w.next ≠ c.addrOf (w.next + 1) := by rintro e; rw [← e, p2] at hnone3; cases hnone3
    have hal : a ≠ c.addrOf (w.next + 1) := by rintro e; rw [← e, o2 _ hap, c1] at hnone3; cases hnone3
    have l3 : v3.contracts (c.addrOf (w.next + 1)) = some ⟨none, .token ts⟩ := by
      rw [← hv3]; exact setContract_self _ _ _
    have o3 : ∀ b, b ≠ c.addrOf (w.next + 1) → v3.contracts b = v2.contracts b := fun b hb => by
      rw [← hv3]; exact setContract_ne _ _ hb
    have b3 : v3.bank = w2.bank := by rw [← hv3, ← b2]; rfl
    clear hv3 h3
    have hwl : w.contracts (c.addrOf (w.next + 1)) = none := by
      rw [← o1 _ (Ne.symm hal), ← o2 _ (Ne.symm hpl)]; exact hnone3
    -- the pair stores its LP token
    obtain ⟨m4, v4, fs4, rfl, h4, h⟩ := run_cons_inv h
    have p3 := (o3 _ hpl).trans p2
    cases step_inv h4 with
    | replyFactory _ _ _ _ _ _ _ hc _ => rw [p3] at hc; cases hc
    | replyOther _ _ _ _ _ hc => rw [p3] at hc; cases hc
    | replyPair _ _ _ _ ps ps' r4 hc hx4 =>
    rw [p3] at hc
    cases hc
    unfold Pair.reply at hx4
    simp only [bind_eq_ok, okOr_eq_ok, canonicalize_eq_ok, pure_eq_ok, Prod.mk.injEq, Option.some.injEq] at hx4
    obtain ⟨_, rfl, lb, hlb, rfl, rfl⟩ := hx4
    simp only [frames, List.map_nil, List.nil_append] at h
    generalize hv4 : World.setState _ _ _ _ = v4 at h
    have p4 : v4.contracts (c.addrOf w.next) = some ⟨some a, .pair ⟨(r0, r1), ca, lb, (d0, d1), req⟩⟩ := by
      rw [← hv4]; exact setContract_self _ _ _
    have o4 : ∀ b, b ≠ c.addrOf w.next → v4.contracts b = v3.contracts b := fun b hb => by
      rw [← hv4]; exact setContract_ne _ _ hb
    have b4 : v4.bank = w2.bank := by rw [← hv4, ← b3]; rfl
    clear hv4 h4
    -- the factory records the pair
    obtain ⟨m5, v5, fs5, rfl, h5, h⟩ := run_cons_inv h
    have c4 := ((o4 _ hap).trans (o3 _ hal)).trans ((o2 _ hap).trans c1)
    cases step_inv h5 with
    | replyPair _ _ _ _ _ _ _ hc _ => rw [c4] at hc; cases hc
    | replyOther _ _ _ _ _ hc => rw [c4] at hc; cases hc
    | replyFactory _ _ _ _ s5 s5' r5 hc hx5 =>
    rw [c4] at hc
    cases hc
    obtain ⟨t, p, info, lt2, ca2, ht5, hp5, hq, hlt2, hca2, rfl, rfl⟩ := Factory.reply_inv hx5
    cases hp5
    cases ht5
    simp only [frames, List.map_nil, List.nil_append, run_nil, Except.ok.injEq, Prod.mk.injEq] at h
    obtain ⟨_, rfl⟩ := h
    have hvp := hl.resolve_addr w.next
    have hinfo : PairInfoRaw.toNormal c.api ⟨(r0, r1), ca, lb, (d0, d1), req⟩ = .ok info := by
      simp only [querier, baseQuerier, lookState, hvp, bind_eq_ok, Except.ok.injEq, okOr_eq_ok, pure_eq_ok] at hq
      obtain ⟨_, ⟨_, rfl, _, hk, rfl⟩, hq⟩ := hq
      rw [p4] at hk
      cases hk
      exact chkPI_eq_ok hq
    have hinfo2 := hinfo
    simp only [PairInfoRaw.toNormal, bind_eq_ok, humanize_eq_ok, pure_eq_ok] at hinfo
    obtain ⟨lth, i1, _, _, _, _, _, _, rfl⟩ := hinfo
    rw [hl.canon_human _ _ i1] at hlt2
    cases hlt2
    rw [g1] at hca2
    cases hca2
    simp only [Pair.lpInst, Token.createAccounts, Token.createLoop] at t6
    refine ⟨?_, ⟨(r0, r1), ca, lb, (d0, d1), req⟩, hr0, hr1, dd0, dd1, rfl, g1, hlb, ⟨_, hinfo2⟩,
      ⟨hwp, hwl, hpl⟩, hnew, ⟨_, setContract_self _ _ _, rfl, rfl, ?_⟩, ?_, ⟨ts, ?_, t5, ?_⟩, ?_⟩
    · rw [← b4]; rfl
    · exact fun k => get_smapSet hok.sorted k
    · exact (setContract_ne _ _ (Ne.symm hap)).trans p4
    · exact (setContract_ne _ _ (Ne.symm hal)).trans ((o4 _ (Ne.symm hpl)).trans l3)
    · simp only [bind_eq_ok] at t6
      obtain ⟨_, _, t6⟩ := t6
      simp only [Except.ok.injEq, Prod.mk.injEq] at t6
      exact ⟨t6.2.symm, t6.1.symm, t4, t1, t2, t3⟩
    · intro b hb1 hb2 hb3
      exact (setContract_ne _ _ hb1).trans ((o4 _ hb2).trans ((o3 _ hb3).trans ((o2 _ hb2).trans (o1 _ hb1))))

end Halo
