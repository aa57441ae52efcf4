import Verif.Lemmas.PoolHist
import Verif.Lemmas.CloseL
/-! # A pair at the moments at which other code runs (helper lemmas for C119) -/

namespace Halo
open _root_.Halo.Spec

/-- The contract whose code a frame runs. -/
def codeOf (c : Chain) (v : World) : Frame → Option Addr
  | .msg _ ⟨.exec target _ _, _⟩ => (c.api.resolve target).toOption
  | .msg _ ⟨.migrate target _, _⟩ => (c.api.resolve target).toOption
  | .msg _ ⟨.inst _ _ _ _, _⟩ => some (c.addrOf v.next)
  | .msg _ _ => none
  | .reply a _ _ => some a

/-- A position in a list made of two parts. -/
theorem mem_or_split {α : Type} {A B pre post : List α} {e : α} (h : A ++ B = pre ++ e :: post) :
    e ∈ A ∨ ∃ p, pre = A ++ p ∧ B = p ++ e :: post := by
  induction A generalizing pre with
  | nil => exact .inr ⟨pre, rfl, h⟩
  | cons a A ih =>
    cases pre with
    | nil =>
      simp only [List.cons_append, List.nil_append, List.cons.injEq] at h
      exact .inl (by rw [h.1]; exact List.mem_cons_self)
    | cons b pre =>
      simp only [List.cons_append, List.cons.injEq] at h
      obtain ⟨rfl, h⟩ := h
      rcases ih h with h1 | ⟨p, rfl, h1⟩
      · exact .inl (List.mem_cons_of_mem _ h1)
      · exact .inr ⟨p, rfl, h1⟩

namespace PairSite
variable {c : Chain} {k : PairSite}

/-- Code runs, or a request is carried out of somebody, that is neither the pair's nor its LP token's nor one of its assets'. -/
def Witnessed (k : PairSite) (c : Chain) (e : World × Frame) : Prop :=
  (∃ b, codeOf c e.1 e.2 = some b ∧ k.QuietAddr b) ∨ k.QuietAddr e.2.actor

/-- Requests to a token that call nobody back. -/
def Dull : ExecMsg → Prop
  | .transfer _ _ => True
  | .transferFrom _ _ _ => True
  | .mint _ _ => True
  | .burn _ => True
  | _ => False

/-- What a pair asks of its tokens and of the bank. -/
inductive Inner (k : PairSite) (c : Chain) : Frame → Prop where
  | bank (dst : Str) (coins : List Coin) : Inner k c (.msg k.a (plain (.bankSend dst coins)))
  | token (t : Addr) (m : ExecMsg) (hr : c.api.resolve t = .ok t) (ht : t = k.lt ∨ k.i0 = .token t ∨ k.i1 = .token t)
      (hm : Dull m) : Inner k c (.msg k.a (plain (.exec t m [])))

theorem Inner.unwitnessed {v : World} {f : Frame} (h : k.Inner c f) : ¬ k.Witnessed c (v, f) := by
  rintro (⟨b, hb, q1, q2, q3, q4⟩ | hq)
  case inr => cases h <;> exact hq.1 rfl
  cases h with
  | bank => cases hb
  | token t m hr ht hm =>
    simp only [codeOf, plain, hr] at hb
    cases hb
    rcases ht with h | h | h
    exacts [q2 h, q3 h, q4 h]

theorem Inner.step {adv : Adv} {n : Nat} {v v' : World} {f : Frame} {fs : List Frame} (hi : k.Inner c f) (hg : k.Good v)
    (h : StepI c adv n v f v' fs) : fs = [] ∧ k.Good v' := by
  cases hi with
  | bank dst coins =>
    unfold plain at h
    generalize hf : (⟨.bankSend dst coins, none⟩ : SubMsg) = sm at h
    cases h with
    | bank sender to_ coins id b w' hne hdst hmv =>
      cases hf
      exact ⟨rfl, hg.tokOnly (fun b => .inl (congrFun (moveCoins_inv hmv).contracts b))⟩
    | _ => cases hf
  | token t m hr ht hm =>
    obtain ⟨adm, st, hst⟩ : ∃ adm st, v.contracts t = some ⟨adm, .token st⟩ := by
      rcases ht with rfl | ht | ht
      · exact ⟨_, _, hg.lp.choose_spec.1⟩
      · exact hg.asset0 _ ht
      · exact hg.asset1 _ ht
    obtain ⟨st', r, he, rfl, rfl⟩ := tok_exec hr hst h
    cases he with
    | transfer | burn | mint | transferFrom => exact ⟨rfl, hg.tokOnly (.set hst (fun _ => rfl))⟩
    | _ => exact hm.elim

theorem Inner.trace {adv : Adv} : ∀ {fs : List Frame} {n n' : Nat} {v v' : World}, (∀ f ∈ fs, k.Inner c f) → k.Good v →
    Halo.run c adv n v fs = .ok (n', v') → ∀ e ∈ Halo.trace c adv n v fs, k.Inner c e.2 := by
  intro fs
  induction fs with
  | nil => intro n n' v v' _ _ _ e he; rw [trace_nil] at he; cases he
  | cons f fs ih =>
    intro n n' v v' hi hg hr e he
    obtain ⟨m, v1, fs1, rfl, hs, hr⟩ := run_cons_inv hr
    obtain ⟨rfl, g1⟩ := (hi f List.mem_cons_self).step hg (step_inv hs)
    rw [trace_cons hs] at he
    rcases List.mem_cons.mp he with rfl | he
    · exact hi _ List.mem_cons_self
    · exact ih (fun g hm => hi g (List.mem_cons_of_mem _ hm)) g1 hr e he

theorem inner_pay (hx : k.Ctx c) {i : AssetInfo} (hi : i = k.i0 ∨ i = k.i1) (x : Nat) (dst : Addr) :
    k.Inner c (.msg k.a (plain (({ info := i, amount := x } : Asset).intoMsg dst))) := by
  cases i with
  | native d => exact .bank _ _
  | token t => exact .token t _ (hx.resolve_of hi rfl) (.inr (hi.imp Eq.symm Eq.symm)) trivial

/-- Everything a pair sends is for its tokens or the bank. -/
theorem inner_execute (hx : k.Ctx c) {q : Querier} {sender : Addr} {funds : List Coin} {m : ExecMsg} {s' : Pair.State} {r : Response}
    (h : Pair.execute c.api q k.a k.s sender funds m = .ok (s', r)) : ∀ f ∈ frames k.a r, k.Inner c f := by
  intro f hf
  obtain ⟨sm, h1, rfl⟩ := mem_frames hf
  rcases Pair.execute_inv h with ⟨_, x, bp, ms, to_, rfl, hex⟩ | ⟨_, _, rfl, hex⟩ | ⟨_, _, _, rfl, hex⟩
  · obtain ⟨_, _, o, a, od, ad, ret, sp, cm, hs⟩ := Pair.receive_swap_inv (funds := funds) hex
    rw [hs.h_resp] at h1
    simp only at h1
    split at h1
    · rw [List.mem_singleton.mp h1]
      refine inner_pay hx ?_ _ _
      rcases hs.h_pools with ⟨hq, _⟩ | ⟨hq, _⟩
      · exact .inr (hx.pool_infos hq).2
      · exact .inl (hx.pool_infos hq).1
    · cases h1
  · obtain ⟨_, _, _, p0, p1, lt, ti, ratio, r0, r1, hs⟩ := Pair.receive_withdraw_inv (funds := funds) hex
    obtain ⟨e0, e1⟩ := hx.pool_infos hs.h_pools
    have hlt := hs.h_lt
    rw [hx.lp] at hlt
    cases hlt
    rw [hs.h_resp] at h1
    simp only [List.mem_cons, List.not_mem_nil, or_false] at h1
    rcases h1 with rfl | rfl | rfl
    · exact inner_pay hx (.inl e0) _ _
    · exact inner_pay hx (.inr e1) _ _
    · exact .token _ _ hx.resolveLp (.inl rfl) trivial
  · obtain ⟨_, p0, p1, d0, d1, lt, ti, share, hs⟩ := Pair.provide_inv hex
    obtain ⟨e0, e1⟩ := hx.pool_infos hs.h_pools
    have hlt := hs.h_lt
    rw [hx.lp] at hlt
    cases hlt
    have col : ∀ (i : AssetInfo) (d : Nat), i = k.i0 ∨ i = k.i1 → ∀ m ∈ Pair.collectMsg k.a sender i d, k.Inner c (.msg k.a (plain m)) := by
      intro i d hi m hm
      cases i with
      | native => cases hm
      | token t =>
        rw [List.mem_singleton.mp hm]
        exact .token _ _ (hx.resolve_of hi rfl) (.inr (hi.imp Eq.symm Eq.symm)) trivial
    rw [hs.h_resp] at h1
    simp only [List.mem_append, List.mem_map, List.mem_singleton, List.map_append] at h1
    rcases h1 with (⟨m, hm, rfl⟩ | ⟨m, hm, rfl⟩) | h1
    · exact col _ _ (.inl e0) m hm
    · exact col _ _ (.inr e1) m hm
    · obtain ⟨_, rfl, rfl⟩ := h1
      exact .token _ _ hx.resolveLp (.inl rfl) trivial

/-- No request changes a pair's storage. -/
theorem execute_state {api : Api} {q : Querier} {self sender : Addr} {funds : List Coin} {m : ExecMsg} {s s' : Pair.State} {r : Response}
    (h : Pair.execute api q self s sender funds m = .ok (s', r)) : s' = s := by
  rcases Pair.execute_inv h with ⟨_, x, bp, ms, to_, rfl, hex⟩ | ⟨_, _, rfl, hex⟩ | ⟨_, _, _, rfl, hex⟩
  · exact (Pair.receive_swap_inv (funds := funds) hex).1
  · exact (Pair.receive_withdraw_inv (funds := funds) hex).1
  · exact (Pair.provide_inv hex).1

theorem Broken.trace {adv : Adv} {n : Nat} {v : World} {fs : List Frame} (hb : k.Broken v) :
    ∀ e ∈ Halo.trace c adv n v fs, k.Broken e.1 := fun e he =>
  (trace_all (P := fun v _ => k.Broken v) (fun _ _ _ _ _ _ hp hs => hp.step hs) hb e he).choose_spec

/-- The first moment of an execution. -/
theorem _root_.Halo.trace_head {adv : Adv} {n : Nat} {v : World} {f : Frame} {fs : List Frame} {e : World × Frame} {post : List (World × Frame)}
    (h : Halo.trace c adv n v (f :: fs) = e :: post) : e = (v, f) := by
  cases n with
  | zero => simp [Halo.trace] at h
  | succ n =>
    simp only [Halo.trace, List.cons.injEq] at h
    exact h.1.symm

/-- If an execution has a later moment, the first step succeeded. -/
theorem _root_.Halo.trace_later {adv : Adv} {n : Nat} {v : World} {f : Frame} {fs : List Frame} {e0 e : World × Frame}
    {pre post : List (World × Frame)} (h : Halo.trace c adv n v (f :: fs) = e0 :: (pre ++ e :: post)) :
    ∃ m v1 fs1, n = m + 1 ∧ Halo.step c adv m v f = .ok (v1, fs1) ∧ e0 = (v, f) ∧ Halo.trace c adv m v1 (fs1 ++ fs) = pre ++ e :: post := by
  cases n with
  | zero => simp [Halo.trace] at h
  | succ n =>
    simp only [Halo.trace, List.cons.injEq] at h
    obtain ⟨h0, h⟩ := h
    split at h
    · rename_i w' fs' hs
      exact ⟨n, w', fs', rfl, hs, h0.symm, h⟩
    · simp at h

/-- If other code runs later, what the pair asked of its tokens and of the bank has been done. -/
theorem Inner.done {adv : Adv} : ∀ {fs gs : List Frame} {n : Nat} {v : World} {pre post : List (World × Frame)} {e : World × Frame},
    (∀ f ∈ fs, k.Inner c f) → k.Good v → Halo.trace c adv n v (fs ++ gs) = pre ++ e :: post → k.Witnessed c e →
    ∃ n' v', Halo.run c adv n v fs = .ok (n', v') := by
  intro fs
  induction fs with
  | nil => intro gs n v pre post e _ _ _ _; exact ⟨n, v, run_nil⟩
  | cons f fs ih =>
    intro gs n v pre post e hi hg h hw
    rw [List.cons_append] at h
    cases pre with
    | nil =>
      rw [List.nil_append] at h
      rw [trace_head h] at hw
      exact absurd hw (hi f List.mem_cons_self).unwitnessed
    | cons e0 pre =>
      obtain ⟨m, v1, fs1, rfl, hs, _, h⟩ := trace_later h
      obtain ⟨rfl, g1⟩ := (hi f List.mem_cons_self).step hg (step_inv hs)
      obtain ⟨n', v', hr⟩ := ih (fun g hm => hi g (List.mem_cons_of_mem _ hm)) g1 h hw
      refine ⟨n', v', ?_⟩
      simp only [Halo.run, hs, List.nil_append]
      exact hr

/-- Whenever other code runs, in an execution that goes through or not, the pool is where the requests made to the pair until then have brought it. -/
theorem Good.moments {adv : Adv} (hx : k.Ctx c) (hra : c.api.resolve k.a = .ok k.a) :
    ∀ (n : Nat) {v : World} {fs : List Frame}, k.Good v → Sane c v fs → k.Quiet fs → ∀ pre e post, Halo.trace c adv n v fs = pre ++ e :: post → k.Witnessed c e →
      k.Broken e.1 ∨ (k.Good e.1 ∧ Path (k.pool v) (k.calls c pre) (k.pool e.1)) := by
  intro n
  induction n using Nat.strongRecOn with
  | ind n ih =>
  intro v fs hg hsane hq pre e post hpos hwit
  cases fs with
  | nil => rw [trace_nil] at hpos; simp at hpos
  | cons f rest =>
  cases pre with
  | nil =>
    rw [List.nil_append] at hpos
    rw [trace_head hpos]
    exact .inr ⟨hg, .done _ _ (Drift.refl _)⟩
  | cons e0 pre =>
  rw [List.cons_append] at hpos
  obtain ⟨m, v1, fs1, rfl, hs, rfl, hpos'⟩ := trace_later hpos
  replace hpos := hpos'
  clear hpos'
  have hst := step_inv hs
  have hqf : k.QuietAddr f.actor := hq f List.mem_cons_self
  have hqr : k.Quiet rest := fun g hgr => hq g (List.mem_cons_of_mem _ hgr)
  have hs1 := hsane.step hst
  -- the rest of the run, once the new frames are known to be quiet
  have generic : k.Quiet fs1 → k.callOf c (v, f) = none → k.Broken e.1 ∨ (k.Good e.1 ∧
      Path (k.pool v) (k.calls c ((v, f) :: pre)) (k.pool e.1)) := by
    intro hq1 hcall
    rw [calls_none hcall]
    rcases hg.step hsane hqf.1 hst with hb | ⟨g1, dr⟩
    · exact .inl (hb.trace e (by rw [hpos]; simp))
    · rcases ih m (Nat.lt_succ_self _) g1 hs1 (hq1.append hqr) pre e post hpos hwit with hb | ⟨g', mv⟩
      · exact .inl hb
      · exact .inr ⟨g', mv.drift dr⟩
  -- sending tokens of the pool
  have sends : ∀ sender target em funds id me w1 adm st st' o dst x hm, f = .msg sender ⟨.exec target em funds, id⟩ →
      c.api.resolve target = .ok me → moveCoins v sender me funds = .ok w1 →
      v.contracts me = some ⟨adm, .token st⟩ → v1 = w1.setState me adm (.token st') →
      fs1 = .msg me (plain (.exec dst (.receive sender x hm) [])) :: replyFrame sender id none →
      o ≠ k.a → st'.balances = Token.moveBal st.balances o dst x → st'.totalSupply = st.totalSupply →
      c.api.validate dst = .ok dst →
      k.Broken e.1 ∨ (k.Good e.1 ∧ Path (k.pool v) (k.calls c ((v, f) :: pre)) (k.pool e.1)) := by
    intro sender target em funds id me w1 adm st st' o dst x hm hfeq hres hmv hme hv1 hfs ho hbal hsup hval
    have hact : f.actor = sender := by rw [hfeq]; rfl
    have hma : me ≠ k.a := by rintro rfl; rw [hg.pair] at hme; cases hme
    have hcall : k.callOf c (v, f) = none := by rw [hfeq]; exact callOf_ne hres hma _ _ _ _ _
    clear hfeq
    subst hact
    by_cases hqm : k.QuietAddr me
    · refine generic ?_ hcall
      rw [hfs]
      intro g hgm
      rcases List.mem_cons.mp hgm with rfl | hgm
      · exact hqm
      · exact quiet_replyFrame hqf id none g hgm
    rcases hg.step hsane hqf.1 hst with hb | ⟨g1, dr1⟩
    · exact .inl (hb.trace e (by rw [hpos]; simp))
    rw [calls_none hcall]
    rw [hfs, List.cons_append] at hs1 hpos
    cases pre with
    | nil =>
      rw [List.nil_append] at hpos
      rw [trace_head hpos]
      exact .inr ⟨g1, .done _ _ dr1⟩
    | cons e0 pre =>
    rw [List.cons_append] at hpos
    obtain ⟨m2, v2, fs2, rfl, hs2, rfl, hpos'⟩ := trace_later hpos
    replace hpos := hpos'
    clear hpos'
    have hst2 := step_inv hs2
    have hq2 : k.Quiet (replyFrame f.actor id none ++ rest) := (quiet_replyFrame hqf id none).append hqr
    have hs2' := hs1.step hst2
    have hres2 : c.api.resolve dst = .ok dst := by
      obtain ⟨_, b, h1, h2⟩ := validate_eq_ok.mp hval
      exact resolve_eq_ok.mpr ⟨b, h1, h2⟩
    by_cases hd : dst = k.a
    · have hp := hg.sent hx hmv hqf.1 hme ho hbal hsup hd
      rw [← hv1] at hp
      subst hd
      have hto : k.toPair c k.a = true := by simp [toPair, hra]
      obtain ⟨w2, s2, r2, hmv2, hir2, hex2, hv2, hfs2⟩ := g1.exec hra hst2
      have g2 : k.Good v2 := by
        rw [hv2, execute_state hex2, g1.setState_adm (moveCoins_inv hmv2).contracts]
        exact g1.tokOnly (fun b => .inl (congrFun (moveCoins_inv hmv2).contracts b))
      have hin : ∀ g ∈ fs2, k.Inner c g := by
        rw [hfs2]
        simp only [replyFrame, List.append_nil]
        exact inner_execute hx hex2
      obtain ⟨n0, v3, hr3⟩ := Inner.done hin g2 hpos hwit
      have hs3 := hs2'.run hr3
      rw [trace_append hr3] at hpos
      have hle := run_le hr3
      have fin : k.Good v3 ∧ k.calls c (Halo.trace c adv m2 v2 fs2) = [] ∧ ∃ l q,
          k.callOf c (v1, .msg me (plain (.exec k.a (.receive f.actor x hm) []))) = some (k.pool v, l) ∧
          Act l (k.pool v) q ∧ Drift q (k.pool v3) := by
        rcases Pair.execute_inv hex2 with ⟨_, _, bp, ms, to_, hm2, _⟩ | ⟨_, _, hm2, hex3⟩ | ⟨_, _, _, hm2, _⟩
        · cases hm2
          exact g1.swap hx hp.1 hp.2.1 hra hst2 hr3
        · cases hm2
          obtain ⟨_, hcan, _⟩ := Pair.receive_withdraw_inv (funds := []) hex3
          have hml := hs1.actor_eq hx.law List.mem_cons_self (f := .msg me _) hcan hx.lp
          have hml : k.lt = me := hml.symm
          rw [← hp.2.2 hml]
          obtain ⟨a1, a2, q, a3, a4⟩ := g1.withdraw hx hra hst2 hr3
          exact ⟨a1, a2, _, q, by simp [callOf, plain, hto], a3, a4⟩
        · cases hm2
      obtain ⟨g3, nc, l, q, hcl, act, dr⟩ := fin
      rcases mem_or_split hpos with he | ⟨p, rfl, hpos2⟩
      · exact absurd hwit (Inner.trace hin g2 hr3 e he).unwitnessed
      rw [calls_some hcl, calls_append, nc, List.nil_append]
      rcases ih n0 (by omega) g3 hs3 hq2 p e post hpos2 hwit with hb | ⟨g', mv⟩
      · exact .inl hb
      · exact .inr ⟨g', .call _ _ _ _ _ _ (Drift.refl _) act (mv.drift dr)⟩
    · have hq3 : k.Quiet fs2 := by
        unfold plain at hst2
        generalize hf : (⟨.exec dst (.receive f.actor x hm) [], none⟩ : SubMsg) = sm at hst2
        cases hst2 with
        | token _ _ _ _ _ me w1 admin s1 s' r hme hmv hrr hc hx =>
          cases hf
          cases Token.execute_inv hx
        | pair _ _ _ _ _ me w1 admin s1 s' r hme hmv hrr hc hx | factory _ _ _ _ _ me w1 admin s1 s' r hme hmv hrr hc hx
        | router _ _ _ _ _ me w1 admin s1 s' r hme hmv hrr hc hx =>
          cases hf
          rw [hres2] at hme
          cases hme
          have := g1.quiet_of hd (by rintro _ _ h; rw [hc] at h; cases h)
          simp only [replyFrame, List.append_nil]
          exact quiet_frames this r
        | other _ _ _ _ _ me w1 admin ms hme hmv hc =>
          cases hf
          rw [hres2] at hme
          cases hme
          have := g1.quiet_of hd (by rintro _ _ h; rw [hc] at h; cases h)
          simp only [replyFrame, List.append_nil]
          exact quiet_msgs this ms
        | bank | inst | migrate | admin => cases hf
      rw [calls_none (e := (v1, .msg me (plain _))) (callOf_ne hres2 hd _ _ _ _ _)]
      rcases g1.step hs1 hma hst2 with hb | ⟨g2, dr2⟩
      · exact .inl (hb.trace e (by rw [hpos]; simp))
      · rcases ih m2 (by omega) g2 hs2' (hq3.append hq2) pre e post hpos hwit with hb | ⟨g', mv⟩
        · exact .inl hb
        · exact .inr ⟨g', mv.drift (dr1.trans dr2)⟩
  have notA : ∀ t adm st, v.contracts t = some ⟨adm, .token st⟩ → ∀ o sp al, st.allowances.get (o, sp) = some al →
      o ≠ k.a := by
    rintro t adm st ht o sp al ha rfl
    rw [hsane.silent t adm st k.a ht (.inl ⟨_, _, hg.pair⟩)] at ha
    cases ha
  have hst' := hst
  cases hst' with
  | bank sender _ _ id => exact generic (quiet_replyFrame hqf id none) rfl
  | token sender target em funds id me w1 admin s1 s' r hme hmv hrr hc hxx =>
    have he := Token.execute_inv hxx
    cases he with
    | send dst x hm _ hv _ _ =>
      exact sends sender target _ funds id me w1 admin s1 _ sender dst x hm rfl hme hmv hc rfl rfl hqf.1 rfl rfl hv
    | sendFrom o dst x hm al hv _ ha =>
      exact sends sender target _ funds id me w1 admin s1 _ o dst x hm rfl hme hmv hc rfl rfl (notA _ _ _ hc _ _ _ ha)
        rfl rfl hv
    | _ =>
      exact generic (quiet_replyFrame hqf id none)
        (callOf_ne hme (by rintro rfl; rw [hg.pair] at hc; cases hc) _ _ _ _ _)
  | pair sender target em funds id me w1 admin s1 s' r hme hmv hrr hc hxx =>
    by_cases hd : me = k.a
    · subst hd
      obtain ⟨w2, s2, r2, hmv2, _, hex, hv1, hfs⟩ := hg.exec hme hst
      have hcc := hg.pair
      rw [hc] at hcc
      cases hcc
      have hg1 : k.Good w2 := hg.tokOnly (fun b => .inl (congrFun (moveCoins_inv hmv2).contracts b))
      rcases Pair.execute_inv hex with ⟨_, x, bp, ms, to_, rfl, hex⟩ | ⟨_, _, rfl, hex⟩ | ⟨_, _, _, rfl, hex⟩
      · exfalso
        obtain ⟨_, _, o, a, od, ad, ret, sp, cm, hs⟩ := Pair.receive_swap_inv (funds := funds) hex
        have hio : o.info = .token sender := hs.h_info.symm
        rcases hs.h_pools with ⟨hq, _⟩ | ⟨hq, _⟩
        · obtain ⟨e0, _⟩ := hg1.pools hx hq
          exact hqf.2.2.1 (e0.symm.trans hio)
        · obtain ⟨_, e1, _⟩ := hg1.pools hx hq
          exact hqf.2.2.2 (e1.symm.trans hio)
      · exfalso
        obtain ⟨_, hcan, _⟩ := Pair.receive_withdraw_inv (funds := funds) hex
        exact hqf.2.1 (hsane.actor_eq hx.law List.mem_cons_self (f := .msg sender _) hcan hx.lp)
      · rw [hfs, List.append_assoc] at hs1 hpos
        rw [hv1] at hs1 hpos
        have g2 : k.Good (w2.setState k.a hg.adm (.pair s2)) := by
          rw [(Pair.provide_inv hex).1, hg.setState_adm (moveCoins_inv hmv2).contracts]
          exact hg1
        obtain ⟨n0, v3, hr3⟩ := Inner.done (inner_execute hx (m := .provideLiquidity _ _ _) hex) g2 hpos hwit
        obtain ⟨g3, nc, act⟩ := hg.provide hx hqf.1 hmv2 hex hr3
        have hle := run_le hr3
        have hto : k.toPair c target = true := by simp [toPair, hme]
        have hcl : ∀ as tol rc, k.callOf c (v, .msg sender ⟨.exec target (.provideLiquidity as tol rc) funds, id⟩) =
            some (k.pool v, .deposit (named k.i0 as) (named k.i1 as)) := by
          intro as tol rc
          simp only [callOf, hto, ↓reduceIte]
        rw [trace_append hr3] at hpos
        rcases mem_or_split hpos with he | ⟨p, rfl, hpos2⟩
        · exact absurd hwit (Inner.trace (inner_execute hx (m := .provideLiquidity _ _ _) hex) g2 hr3 e he).unwitnessed
        rw [calls_some (hcl _ _ _), calls_append, nc, List.nil_append]
        rcases ih n0 (by omega) g3 (hs1.run hr3) ((quiet_replyFrame hqf id none).append hqr) p e post hpos2 hwit with hb | ⟨g', mv⟩
        · exact .inl hb
        · exact .inr ⟨g', .call _ _ _ _ _ _ (Drift.refl _) act mv⟩
    · exact generic ((quiet_frames (hg.quiet_of hd (by rintro _ _ h; rw [hc] at h; cases h)) r).append
        (quiet_replyFrame hqf id none)) (callOf_ne hme hd _ _ _ _ _)
  | factory sender target em funds id me w1 admin s1 s' r hme hmv hrr hc hxx
  | router sender target em funds id me w1 admin s1 s' r hme hmv hrr hc hxx =>
    exact generic ((quiet_frames (hg.quiet_of (by rintro rfl; rw [hg.pair] at hc; cases hc)
      (by rintro _ _ h; rw [hc] at h; cases h)) r).append (quiet_replyFrame hqf id none))
      (callOf_ne hme (by rintro rfl; rw [hg.pair] at hc; cases hc) _ _ _ _ _)
  | other sender target em funds id me w1 admin ms hme hmv hc =>
    exact generic ((quiet_msgs (hg.quiet_of (by rintro rfl; rw [hg.pair] at hc; cases hc)
      (by rintro _ _ h; rw [hc] at h; cases h)) ms).append (quiet_replyFrame hqf id none))
      (callOf_ne hme (by rintro rfl; rw [hg.pair] at hc; cases hc) _ _ _ _ _)
  | inst sender admin codeId em funds id kk adm2 w1 s1 fs2 hk hadm hnew hmv hxx =>
    refine generic (Quiet.append ?_ (quiet_replyFrame hqf id _)) rfl
    intro g hgm
    obtain ⟨sm, rfl⟩ := callInstantiate_frames hxx g hgm
    have hne : c.addrOf v.next ≠ k.a := by
      intro e
      rw [e, hg.pair] at hnew
      cases hnew
    exact hg.quiet_of (b := c.addrOf v.next) hne (by rintro _ _ h; rw [hnew] at h; cases h)
  | migrate sender target codeId id kk me s1 hk hme hc => exact generic (quiet_replyFrame hqf id none) rfl
  | admin sender _ _ id => exact generic (quiet_replyFrame hqf id none) rfl
  | replyPair me _ _ admin s1 s' r hc hxx | replyFactory me _ _ admin s1 s' r hc hxx =>
    exact generic (quiet_frames hqf r) rfl
  | replyOther me _ _ admin ms hc => exact generic (quiet_msgs hqf ms) rfl

/-- A position in a list made of two parts is in one of them. -/
theorem _root_.Halo.split_or_split {α : Type} {A B pre post : List α} {e : α} (h : A ++ B = pre ++ e :: post) :
    (∃ q, A = pre ++ e :: q) ∨ ∃ p, pre = A ++ p ∧ B = p ++ e :: post := by
  induction A generalizing pre with
  | nil => exact .inr ⟨pre, rfl, h⟩
  | cons a A ih =>
    cases pre with
    | nil =>
      simp only [List.cons_append, List.nil_append, List.cons.injEq] at h
      exact .inl ⟨A, by rw [h.1]; rfl⟩
    | cons b pre =>
      simp only [List.cons_append, List.cons.injEq] at h
      obtain ⟨rfl, h⟩ := h
      rcases ih h with ⟨q, rfl⟩ | ⟨p, rfl, h1⟩
      · exact .inl ⟨q, rfl⟩
      · exact .inr ⟨p, rfl, h1⟩

/-- A message of a user runs nobody's code in the name of the pair or its tokens. -/
theorem Good.quiet_user {w : World} (hw : Reachable c w) (hg : k.Good w) {signer : Addr} (hu : c.IsUser signer) (m : CosmosMsg) :
    k.Quiet [.msg signer (plain m)] := by
  intro f hf
  simp only [List.mem_singleton] at hf
  subst hf
  have key : ∀ b ct, w.contracts b = some ct → signer ≠ b := by
    rintro b ct hb rfl
    obtain ⟨j, _, hj⟩ := hw.contractsAt _ _ hb
    exact hu.1 j hj.symm
  obtain ⟨st, hlp, _⟩ := hg.lp
  refine ⟨key _ _ hg.pair, key _ _ hlp, fun e => ?_, fun e => ?_⟩
  · obtain ⟨adm, st, h⟩ := hg.asset0 _ e
    exact key _ _ h rfl
  · obtain ⟨adm, st, h⟩ := hg.asset1 _ e
    exact key _ _ h rfl

/-- The refinement at the moments at which other code runs, over histories. -/
theorem Good.moments_hist (hx : k.Ctx c) {w w' : World} (hw : Reachable c w) (hg : k.Good w) {tr : List (World × Frame)}
    (hl : Hist c w tr w') : ∀ pre e post, tr = pre ++ e :: post → k.Witnessed c e →
      k.Broken e.1 ∨ (k.Good e.1 ∧ Path (k.pool w) (k.calls c pre) (k.pool e.1)) := by
  induction hl with
  | refl =>
    intro pre e post h
    cases pre <;> cases h
  | tx tr adv gas v w' signer m hl hu hxx ih =>
    intro pre e post hpos hwit
    rcases split_or_split hpos with ⟨q, hq⟩ | ⟨p, rfl, hp⟩
    · exact ih pre e q hq hwit
    have hv := hw.later hl.later
    rcases Good.hist hx hw hg hl with hb | ⟨hg', mv⟩
    · exact .inl (hb.trace e (by rw [hp]; simp))
    rcases Good.moments hx (hg'.resolve hv.contractsAt hx) _ hg' (hv.sane.start hu m) (hg'.quiet_user hv hu m) p e post hp hwit with hb | ⟨g2, mv2⟩
    · exact .inl hb
    · rw [calls_append]
      exact .inr ⟨g2, mv.append mv2⟩
  | block tr v b hl ih => exact ih
  | env tr v bank' hl hb ih => exact ih

end PairSite
end Halo
