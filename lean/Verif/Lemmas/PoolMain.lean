import Verif.Lemmas.PoolRun
/-! # A pair's reserves and LP supply move only by pool moves (helper lemmas for C21) -/

namespace Halo
open _root_.Halo.Spec

namespace PairSite
variable {c : Chain} {k : PairSite}

/-- An account that is neither the pair, nor its LP token, nor one of its assets. -/
def QuietAddr (k : PairSite) (b : Addr) : Prop := b ≠ k.a ∧ b ≠ k.lt ∧ k.i0 ≠ .token b ∧ k.i1 ≠ .token b

theorem Good.quiet_of {v : World} (hg : k.Good v) {b : Addr} (hb : b ≠ k.a)
    (ht : ∀ adm st, v.contracts b ≠ some ⟨adm, .token st⟩) : k.QuietAddr b := by
  refine ⟨hb, ?_, ?_, ?_⟩
  · rintro rfl
    obtain ⟨st, h, _⟩ := hg.lp
    exact ht _ _ h
  · intro h
    obtain ⟨adm, st, h⟩ := hg.asset0 b h
    exact ht _ _ h
  · intro h
    obtain ⟨adm, st, h⟩ := hg.asset1 b h
    exact ht _ _ h

theorem quiet_replyFrame {s : Addr} (hs : k.QuietAddr s) (id : Option Nat) (cr : Option Addr) :
    k.Quiet (replyFrame s id cr) := by
  intro g hg
  obtain ⟨i, _, rfl⟩ := mem_replyFrame hg
  exact hs

theorem Quiet.append {fs gs : List Frame} (h1 : k.Quiet fs) (h2 : k.Quiet gs) : k.Quiet (fs ++ gs) := by
  intro f hf
  rcases List.mem_append.mp hf with h | h
  exacts [h1 f h, h2 f h]

theorem quiet_frames {b : Addr} (hb : k.QuietAddr b) (r : Response) : k.Quiet (frames b r) := by
  intro g hg
  obtain ⟨m, _, rfl⟩ := mem_frames hg
  exact hb

theorem quiet_msgs {b : Addr} (hb : k.QuietAddr b) (ms : List SubMsg) : k.Quiet (ms.map (Frame.msg b)) := by
  intro g hg
  simp only [List.mem_map] at hg
  obtain ⟨m, _, rfl⟩ := hg
  exact hb

/-- A send from another account: what it changes for the pair. -/
theorem Good.sent {v w1 : World} {sender me o dst : Addr} {funds : List Coin} {adm : Option Addr}
    {st st' : TokenState} {x : Nat} (hg : k.Good v) (hx : k.Ctx c) (hm : moveCoins v sender me funds = .ok w1)
    (hs : sender ≠ k.a) (ht : v.contracts me = some ⟨adm, .token st⟩) (ho : o ≠ k.a)
    (hb : st'.balances = Token.moveBal st.balances o dst x) (hsup : st'.totalSupply = st.totalSupply) (hd : dst = k.a) :
    (k.i0 = .token me → k.pool (w1.setState me adm (.token st')) = ⟨(k.pool v).r0 + x, (k.pool v).r1, (k.pool v).supply⟩) ∧
    (k.i1 = .token me → k.pool (w1.setState me adm (.token st')) = ⟨(k.pool v).r0, (k.pool v).r1 + x, (k.pool v).supply⟩) ∧
    (k.lt = me → k.pool (w1.setState me adm (.token st')) = k.pool v) := by
  have hmv := moveCoins_inv hm
  have hma : me ≠ k.a := by rintro rfl; rw [hg.pair] at ht; cases ht
  have e : (w1.setState me adm (.token st')).contracts me = some ⟨adm, .token st'⟩ := setContract_self _ _ _
  have other : ∀ i, i ≠ .token me → held (w1.setState me adm (.token st')) i k.a = held v i k.a := by
    intro i hi
    refine held_congr (fun d _ => ?_) (fun t hit => ?_)
    · exact hmv.others d k.a (Ne.symm hs) (Ne.symm hma)
    · refine (setContract_ne _ _ ?_).trans (congrFun hmv.contracts t)
      rintro rfl
      exact hi hit
  have this : ∀ i, i = .token me → held (w1.setState me adm (.token st')) i k.a = held v i k.a + x := by
    rintro _ rfl
    rw [held_token e, held_token ht, hb, Token.moveBal_get]
    simp [hd, Ne.symm ho]
  have sup : supplyAt (w1.setState me adm (.token st')) k.lt = supplyAt v k.lt := by
    by_cases hl : k.lt = me
    · rw [hl, supplyAt_token e, supplyAt_token ht, hsup]
    · exact supplyAt_congr ((setContract_ne _ _ hl).trans (congrFun hmv.contracts _))
  refine ⟨fun h => ?_, fun h => ?_, fun h => ?_⟩
  · simp only [pool, this _ h, other _ (fun h' => hx.ne (h.trans h'.symm)), sup]
  · simp only [pool, this _ h, other _ (fun h' => hx.ne (h'.trans h.symm)), sup]
  · subst h
    simp only [pool, other _ hx.lp0, other _ hx.lp1, sup]

/-- **The refinement.** While foreign frames run, the pool follows the requests made to the pair. -/
theorem Good.run {adv : Adv} (hx : k.Ctx c) (hra : c.api.resolve k.a = .ok k.a) :
    ∀ (n : Nat) {n' : Nat} {v v' : World} {fs : List Frame}, k.Good v → Sane c v fs → k.Quiet fs →
      Halo.run c adv n v fs = .ok (n', v') →
      k.Broken v' ∨ (k.Good v' ∧ Path (k.pool v) (k.calls c (trace c adv n v fs)) (k.pool v')) := by
  intro n
  induction n using Nat.strongRecOn with
  | ind n ih =>
  intro n' v v' fs hg hsane hq hrun
  cases fs with
  | nil =>
    rw [run_nil] at hrun
    cases hrun
    rw [trace_nil]
    exact .inr ⟨hg, .done _ _ (Drift.refl _)⟩
  | cons f rest =>
  obtain ⟨m, v1, fs1, rfl, hs, hr⟩ := run_cons_inv hrun
  have hst := step_inv hs
  have hqf : k.QuietAddr f.actor := hq f List.mem_cons_self
  have hqr : k.Quiet rest := fun g hgr => hq g (List.mem_cons_of_mem _ hgr)
  have hs1 := hsane.step hst
  rw [trace_cons hs]
  -- the rest of the run, once the new frames are known to be quiet
  have generic : k.Quiet fs1 → k.callOf c (v, f) = none → k.Broken v' ∨ (k.Good v' ∧
      Path (k.pool v) (k.calls c ((v, f) :: trace c adv m v1 (fs1 ++ rest))) (k.pool v')) := by
    intro hq1 hcall
    rw [calls_none hcall]
    rcases hg.step hsane hqf.1 hst with hb | ⟨g1, dr⟩
    · exact .inl (hb.run hr)
    · rcases ih m (Nat.lt_succ_self _) g1 hs1 (hq1.append hqr) hr with hb | ⟨g', mv⟩
      · exact .inl hb
      · exact .inr ⟨g', mv.drift dr⟩
  -- sending tokens of the pool
  have sends : ∀ sender target em funds id me w1 adm st st' o dst x hm, f = .msg sender ⟨.exec target em funds, id⟩ →
      c.api.resolve target = .ok me → moveCoins v sender me funds = .ok w1 →
      v.contracts me = some ⟨adm, .token st⟩ → v1 = w1.setState me adm (.token st') →
      fs1 = .msg me (plain (.exec dst (.receive sender x hm) [])) :: replyFrame sender id none →
      o ≠ k.a → st'.balances = Token.moveBal st.balances o dst x → st'.totalSupply = st.totalSupply →
      c.api.validate dst = .ok dst →
      k.Broken v' ∨ (k.Good v' ∧
        Path (k.pool v) (k.calls c ((v, f) :: trace c adv m v1 (fs1 ++ rest))) (k.pool v')) := by
    intro sender target em funds id me w1 adm st st' o dst x hm hfeq hres hmv hme hv1 hfs ho hbal hsup hval
    have hact : f.actor = sender := by rw [hfeq]; rfl
    have hma : me ≠ k.a := by rintro rfl; rw [hg.pair] at hme; cases hme
    have hcall : k.callOf c (v, f) = none := by rw [hfeq]; exact callOf_ne hres hma _ _ _ _ _
    clear hfeq
    subst hact
    by_cases hqm : k.QuietAddr me
    · refine generic ?_ hcall
      rw [hfs]
      intro g hgm
      rcases List.mem_cons.mp hgm with rfl | hgm
      · exact hqm
      · exact quiet_replyFrame hqf id none g hgm
    rcases hg.step hsane hqf.1 hst with hb | ⟨g1, dr1⟩
    · exact .inl (hb.run hr)
    rw [calls_none hcall]
    rw [hfs, List.cons_append] at hr hs1
    rw [hfs, List.cons_append]
    obtain ⟨m2, v2, fs2, rfl, hs2, hr2⟩ := run_cons_inv hr
    have hst2 := step_inv hs2
    rw [trace_cons hs2]
    have hq2 : k.Quiet (replyFrame f.actor id none ++ rest) := (quiet_replyFrame hqf id none).append hqr
    have hs2' := hs1.step hst2
    have hres2 : c.api.resolve dst = .ok dst := by
      obtain ⟨_, b, h1, h2⟩ := validate_eq_ok.mp hval
      exact resolve_eq_ok.mpr ⟨b, h1, h2⟩
    by_cases hd : dst = k.a
    · obtain ⟨n0, v3, hr3, hr4⟩ := run_append.mp hr2
      have hs3 := hs2'.run hr3
      rw [trace_append hr3]
      have hle := run_le hr3
      have hp := hg.sent hx hmv hqf.1 hme ho hbal hsup hd
      rw [← hv1] at hp
      subst hd
      have hto : k.toPair c k.a = true := by simp [toPair, hra]
      have fin : k.Good v3 ∧ k.calls c (trace c adv m2 v2 fs2) = [] ∧ ∃ l q,
          k.callOf c (v1, .msg me (plain (.exec k.a (.receive f.actor x hm) []))) = some (k.pool v, l) ∧
          Act l (k.pool v) q ∧ Drift q (k.pool v3) := by
        obtain ⟨w2, s2, r2, hmv2, hir2, hex2, hv2, hfs2⟩ := g1.exec hra hst2
        rcases Pair.execute_inv hex2 with ⟨_, _, bp, ms, to_, hm2, _⟩ | ⟨_, _, hm2, hex3⟩ | ⟨_, _, _, hm2, _⟩
        · cases hm2
          exact g1.swap hx hp.1 hp.2.1 hra hst2 hr3
        · cases hm2
          obtain ⟨_, hcan, _⟩ := Pair.receive_withdraw_inv (funds := []) hex3
          have hml := hs1.actor_eq hx.law List.mem_cons_self (f := .msg me _) hcan hx.lp
          have hml : k.lt = me := hml.symm
          rw [← hp.2.2 hml]
          obtain ⟨a1, a2, q, a3, a4⟩ := g1.withdraw hx hra hst2 hr3
          exact ⟨a1, a2, _, q, by simp [callOf, plain, hto], a3, a4⟩
        · cases hm2
      obtain ⟨g3, nc, l, q, hcl, act, dr⟩ := fin
      rw [calls_some hcl, calls_append, nc, List.nil_append]
      rcases ih n0 (by omega) g3 hs3 hq2 hr4 with hb | ⟨g', mv⟩
      · exact .inl hb
      · exact .inr ⟨g', .call _ _ _ _ _ _ (Drift.refl _) act (mv.drift dr)⟩
    · have hq3 : k.Quiet fs2 := by
        unfold plain at hst2
        generalize hf : (⟨.exec dst (.receive f.actor x hm) [], none⟩ : SubMsg) = sm at hst2
        cases hst2 with
        | token _ _ _ _ _ me w1 admin s1 s' r hme hmv hrr hc hx =>
          cases hf
          cases Token.execute_inv hx
        | pair _ _ _ _ _ me w1 admin s1 s' r hme hmv hrr hc hx | factory _ _ _ _ _ me w1 admin s1 s' r hme hmv hrr hc hx
        | router _ _ _ _ _ me w1 admin s1 s' r hme hmv hrr hc hx =>
          cases hf
          rw [hres2] at hme
          cases hme
          have := g1.quiet_of hd (by rintro _ _ h; rw [hc] at h; cases h)
          simp only [replyFrame, List.append_nil]
          exact quiet_frames this r
        | other _ _ _ _ _ me w1 admin ms hme hmv hc =>
          cases hf
          rw [hres2] at hme
          cases hme
          have := g1.quiet_of hd (by rintro _ _ h; rw [hc] at h; cases h)
          simp only [replyFrame, List.append_nil]
          exact quiet_msgs this ms
        | bank | inst | migrate | admin => cases hf
      rw [calls_none (e := (v1, .msg me (plain _))) (callOf_ne hres2 hd _ _ _ _ _)]
      rcases g1.step hs1 hma hst2 with hb | ⟨g2, dr2⟩
      · exact .inl (hb.run hr2)
      · rcases ih m2 (by omega) g2 hs2' (hq3.append hq2) hr2 with hb | ⟨g', mv⟩
        · exact .inl hb
        · exact .inr ⟨g', mv.drift (dr1.trans dr2)⟩
  have notA : ∀ t adm st, v.contracts t = some ⟨adm, .token st⟩ → ∀ o sp al, st.allowances.get (o, sp) = some al →
      o ≠ k.a := by
    rintro t adm st ht o sp al ha rfl
    rw [hsane.silent t adm st k.a ht (.inl ⟨_, _, hg.pair⟩)] at ha
    cases ha
  have hst' := hst
  cases hst' with
  | bank sender _ _ id => exact generic (quiet_replyFrame hqf id none) rfl
  | token sender target em funds id me w1 admin s1 s' r hme hmv hrr hc hxx =>
    have he := Token.execute_inv hxx
    cases he with
    | send dst x hm _ hv _ _ =>
      exact sends sender target _ funds id me w1 admin s1 _ sender dst x hm rfl hme hmv hc rfl rfl hqf.1 rfl rfl hv
    | sendFrom o dst x hm al hv _ ha =>
      exact sends sender target _ funds id me w1 admin s1 _ o dst x hm rfl hme hmv hc rfl rfl (notA _ _ _ hc _ _ _ ha)
        rfl rfl hv
    | _ =>
      exact generic (quiet_replyFrame hqf id none)
        (callOf_ne hme (by rintro rfl; rw [hg.pair] at hc; cases hc) _ _ _ _ _)
  | pair sender target em funds id me w1 admin s1 s' r hme hmv hrr hc hxx =>
    by_cases hd : me = k.a
    · subst hd
      obtain ⟨w2, s2, r2, hmv2, _, hex, hv1, hfs⟩ := hg.exec hme hst
      have hcc := hg.pair
      rw [hc] at hcc
      cases hcc
      have hg1 : k.Good w2 := hg.tokOnly (fun b => .inl (congrFun (moveCoins_inv hmv2).contracts b))
      rcases Pair.execute_inv hex with ⟨_, x, bp, ms, to_, rfl, hex⟩ | ⟨_, _, rfl, hex⟩ | ⟨_, _, _, rfl, hex⟩
      · exfalso
        obtain ⟨_, _, o, a, od, ad, ret, sp, cm, hs⟩ := Pair.receive_swap_inv (funds := funds) hex
        have hio : o.info = .token sender := hs.h_info.symm
        rcases hs.h_pools with ⟨hq, _⟩ | ⟨hq, _⟩
        · obtain ⟨e0, _⟩ := hg1.pools hx hq
          exact hqf.2.2.1 (e0.symm.trans hio)
        · obtain ⟨_, e1, _⟩ := hg1.pools hx hq
          exact hqf.2.2.2 (e1.symm.trans hio)
      · exfalso
        obtain ⟨_, hcan, _⟩ := Pair.receive_withdraw_inv (funds := funds) hex
        exact hqf.2.1 (hsane.actor_eq hx.law List.mem_cons_self (f := .msg sender _) hcan hx.lp)
      · rw [hfs, List.append_assoc] at hr hs1
        rw [hv1] at hr hs1
        rw [hfs, hv1, List.append_assoc]
        obtain ⟨n0, v3, hr3, hr4⟩ := run_append.mp hr
        obtain ⟨g3, nc, act⟩ := hg.provide hx hqf.1 hmv2 hex hr3
        have hle := run_le hr3
        have hto : k.toPair c target = true := by simp [toPair, hme]
        have hcl : ∀ as tol rc, k.callOf c (v, .msg sender ⟨.exec target (.provideLiquidity as tol rc) funds, id⟩) =
            some (k.pool v, .deposit (named k.i0 as) (named k.i1 as)) := by
          intro as tol rc
          simp only [callOf, hto, ↓reduceIte]
        rw [trace_append hr3, calls_some (hcl _ _ _), calls_append, nc, List.nil_append]
        rcases ih n0 (by omega) g3 (hs1.run hr3) ((quiet_replyFrame hqf id none).append hqr) hr4 with hb | ⟨g', mv⟩
        · exact .inl hb
        · exact .inr ⟨g', .call _ _ _ _ _ _ (Drift.refl _) act mv⟩
    · exact generic ((quiet_frames (hg.quiet_of hd (by rintro _ _ h; rw [hc] at h; cases h)) r).append
        (quiet_replyFrame hqf id none)) (callOf_ne hme hd _ _ _ _ _)
  | factory sender target em funds id me w1 admin s1 s' r hme hmv hrr hc hxx
  | router sender target em funds id me w1 admin s1 s' r hme hmv hrr hc hxx =>
    exact generic ((quiet_frames (hg.quiet_of (by rintro rfl; rw [hg.pair] at hc; cases hc)
      (by rintro _ _ h; rw [hc] at h; cases h)) r).append (quiet_replyFrame hqf id none))
      (callOf_ne hme (by rintro rfl; rw [hg.pair] at hc; cases hc) _ _ _ _ _)
  | other sender target em funds id me w1 admin ms hme hmv hc =>
    exact generic ((quiet_msgs (hg.quiet_of (by rintro rfl; rw [hg.pair] at hc; cases hc)
      (by rintro _ _ h; rw [hc] at h; cases h)) ms).append (quiet_replyFrame hqf id none))
      (callOf_ne hme (by rintro rfl; rw [hg.pair] at hc; cases hc) _ _ _ _ _)
  | inst sender admin codeId em funds id kk adm2 w1 s1 fs2 hk hadm hnew hmv hxx =>
    refine generic (Quiet.append ?_ (quiet_replyFrame hqf id _)) rfl
    intro g hgm
    obtain ⟨sm, rfl⟩ := callInstantiate_frames hxx g hgm
    have hne : c.addrOf v.next ≠ k.a := by
      intro e
      rw [e, hg.pair] at hnew
      cases hnew
    exact hg.quiet_of (b := c.addrOf v.next) hne (by rintro _ _ h; rw [hnew] at h; cases h)
  | migrate sender target codeId id kk me s1 hk hme hc => exact generic (quiet_replyFrame hqf id none) rfl
  | admin sender _ _ id => exact generic (quiet_replyFrame hqf id none) rfl
  | replyPair me _ _ admin s1 s' r hc hxx | replyFactory me _ _ admin s1 s' r hc hxx =>
    exact generic (quiet_frames hqf r) rfl
  | replyOther me _ _ admin ms hc => exact generic (quiet_msgs hqf ms) rfl

end PairSite
end Halo
