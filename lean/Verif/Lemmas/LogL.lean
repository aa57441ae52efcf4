import Verif.Log
import Verif.Spec.Report
import Verif.Lemmas.PoolHist
import Verif.Lemmas.CreateL
import Verif.Lemmas.LiqL
import Verif.Lemmas.StillL
/-! # Executions with their announcements (helper lemmas for C73) -/

namespace Halo
open _root_.Halo.Spec

/-- A history from `u` in which exactly the frames `tr` were executed and exactly `es` was announced. -/
inductive Logged (c : Chain) (u : World) : List (World × Frame) → List (Addr × Event) → World → Prop where
  | refl : Logged c u [] [] u
  | tx (tr : List (World × Frame)) (es : List (Addr × Event)) (adv : Adv) (gas : Nat) (v w : World) (signer : Addr)
      (m : CosmosMsg) (h : Logged c u tr es v) (hu : c.IsUser signer) (hx : runTx c adv gas v signer m = .ok w) :
      Logged c u (tr ++ trace c adv gas v [.msg signer (plain m)]) (es ++ log c adv gas v [.msg signer (plain m)]) w
  | block (tr : List (World × Frame)) (es : List (Addr × Event)) (v : World) (b : Block) (h : Logged c u tr es v) :
      Logged c u tr es { v with block := b }
  | env (tr : List (World × Frame)) (es : List (Addr × Event)) (v : World) (bank' : Denom → AMap Addr Nat)
      (h : Logged c u tr es v) (hb : ∀ d n, (v.bank d).getD0 (c.addrOf n) ≤ (bank' d).getD0 (c.addrOf n)) :
      Logged c u tr es { v with bank := bank' }

theorem Logged.hist {c : Chain} {u v : World} {tr : List (World × Frame)} {es : List (Addr × Event)}
    (h : Logged c u tr es v) : Hist c u tr v := by
  induction h with
  | refl => exact .refl
  | tx tr es adv gas v w signer m h hu hx ih => exact .tx _ _ _ _ _ _ _ ih hu hx
  | block tr es v b h ih => exact .block _ _ _ ih
  | env tr es v bank' h hb ih => exact .env _ _ _ ih hb

/-- Every history has a log. -/
theorem Hist.logged {c : Chain} {u v : World} {tr : List (World × Frame)} (h : Hist c u tr v) :
    ∃ es, Logged c u tr es v := by
  induction h with
  | refl => exact ⟨_, .refl⟩
  | tx tr adv gas v w signer m h hu hx ih => obtain ⟨es, ih⟩ := ih; exact ⟨_, .tx _ _ _ _ _ _ _ _ ih hu hx⟩
  | block tr v b h ih => obtain ⟨es, ih⟩ := ih; exact ⟨_, .block _ _ _ _ ih⟩
  | env tr v bank' h hb ih => obtain ⟨es, ih⟩ := ih; exact ⟨_, .env _ _ _ _ ih hb⟩

theorem log_cons {c : Chain} {adv : Adv} {n : Nat} {w w' : World} {f : Frame} {fs fs' : List Frame}
    (h : step c adv n w f = .ok (w', fs')) :
    log c adv (n + 1) w (f :: fs) = said c adv n w f ++ log c adv n w' (fs' ++ fs) := by
  simp only [log, h]

theorem log_nil (c : Chain) (adv : Adv) (n : Nat) (w : World) : log c adv n w [] = [] := by
  cases n <;> rfl

/-- What `a` announced. -/
def saidBy (a : Addr) (es : List (Addr × Event)) : List Event := es.filterMap fun e => if e.1 = a then some e.2 else none

theorem saidBy_append (a : Addr) (es es' : List (Addr × Event)) : saidBy a (es ++ es') = saidBy a es ++ saidBy a es' :=
  List.filterMap_append

theorem saidBy_self (a : Addr) (l : List Event) : saidBy a (l.map (Prod.mk a)) = l := by
  induction l with
  | nil => rfl
  | cons e l ih => simp [saidBy]

theorem saidBy_ne {a b : Addr} (h : b ≠ a) (l : List Event) : saidBy a (l.map (Prod.mk b)) = [] := by
  simp [saidBy, h]

/-- Only the contract a message goes to announces something. -/
theorem saidBy_other {c : Chain} {adv : Adv} {n : Nat} {w : World} {sender a b : Addr} {target : Str} {m : ExecMsg}
    {funds : List Coin} {id : Option Nat} (hr : c.api.resolve target = .ok b) (hb : b ≠ a) :
    saidBy a (said c adv n w (.msg sender ⟨.exec target m funds, id⟩)) = [] := by
  simp only [said, hr]
  cases moveCoins w sender b funds with
  | error => rfl
  | ok w => exact saidBy_ne hb _

/-- A machine state the execution comes to. -/
inductive Comes (c : Chain) (adv : Adv) (n0 : Nat) (w0 : World) (fs0 : List Frame) : Nat → World → List Frame → Prop where
  | refl : Comes c adv n0 w0 fs0 n0 w0 fs0
  | step (n : Nat) (v : World) (f : Frame) (rest : List Frame) (v' : World) (fs : List Frame)
      (h : Comes c adv n0 w0 fs0 (n + 1) v (f :: rest)) (hs : step c adv n v f = .ok (v', fs)) :
      Comes c adv n0 w0 fs0 n v' (fs ++ rest)

/-- From there the execution ends as it ends. -/
theorem Comes.run {c : Chain} {adv : Adv} {n0 n : Nat} {w0 v : World} {fs0 fs : List Frame}
    (h : Comes c adv n0 w0 fs0 n v fs) : run c adv n v fs = run c adv n0 w0 fs0 := by
  induction h with
  | refl => rfl
  | step n v f rest v' fs h hs ih =>
    rw [← ih]
    simp only [Halo.run, hs]
    rfl

/-- Running some frames to their end is part of the execution. -/
theorem Comes.runs {c : Chain} {adv : Adv} : ∀ {n0 n n' : Nat} {w0 v v' : World} {fs0 fs rest : List Frame},
    Comes c adv n0 w0 fs0 n v (fs ++ rest) → Halo.run c adv n v fs = .ok (n', v') → Comes c adv n0 w0 fs0 n' v' rest := by
  intro n0 n
  induction n with
  | zero =>
    intro n' w0 v v' fs0 fs rest h hr
    cases fs with
    | nil => rw [run_nil] at hr; cases hr; exact h
    | cons => cases hr
  | succ n ih =>
    intro n' w0 v v' fs0 fs rest h hr
    cases fs with
    | nil => rw [run_nil] at hr; cases hr; exact h
    | cons f fs =>
      obtain ⟨m, w1, fs1, he, hs, hr⟩ := run_cons_inv hr
      cases he
      have : Comes c adv n0 w0 fs0 n w1 (fs1 ++ (fs ++ rest)) := Comes.step _ _ _ _ _ _ h hs
      rw [← List.append_assoc] at this
      exact ih this hr

/-- Invariants hold in every machine state. -/
theorem Comes.all {c : Chain} {adv : Adv} {n0 n : Nat} {w0 v : World} {fs0 fs : List Frame}
    (h : Comes c adv n0 w0 fs0 n v fs) {P : World → List Frame → Prop} (h0 : P w0 fs0)
    (hstep : ∀ n w f w' fs rest, P w (f :: rest) → StepI c adv n w f w' fs → P w' (fs ++ rest)) : P v fs := by
  induction h with
  | refl => exact h0
  | step n v f rest v' fs h hs ih => exact hstep _ _ _ _ _ _ ih (step_inv hs)

/-- Between `u` and `u'` a user's transaction, which succeeds, comes to the machine state `v`, `fs` with `n` units of fuel. -/
def During (c : Chain) (u : World) (adv : Adv) (n : Nat) (v : World) (fs : List Frame) (u' : World) : Prop :=
  ∃ w w1 signer m gas, Later c u w ∧ c.IsUser signer ∧ runTx c adv gas w signer m = .ok w1 ∧ Later c w1 u' ∧
    Comes c adv gas w [.msg signer (plain m)] n v fs

/-- All that is waiting to be done as the token `t` are notifications without coins. -/
def Notices (t : Addr) (fs : List Frame) : Prop :=
  ∀ f ∈ fs, f.actor = t → ∃ dst s x hk, f = .msg t (plain (.exec dst (.receive s x hk) []))

theorem Notices.start {c : Chain} {w : World} {t signer : Addr} {k : Contract} (hw : ContractsAt c w) (hu : c.IsUser signer)
    (ht : w.contracts t = some k) (m : CosmosMsg) : Notices t [.msg signer (plain m)] := by
  intro f hf hft
  simp only [List.mem_singleton] at hf
  subst hf
  obtain ⟨k, _, hk⟩ := hw _ _ ht
  exact absurd (hk.symm.trans hft.symm) (hu.1 k)

theorem Notices.step {c : Chain} {adv : Adv} {n : Nat} {w w' : World} {f : Frame} {fs rest : List Frame} {t : Addr}
    (hs : Notices t (f :: rest)) {adm : Option Addr} {st : TokenState} (ht : w.contracts t = some ⟨adm, .token st⟩)
    (h : StepI c adv n w f w' fs) : Notices t (fs ++ rest) := by
  intro g hg hgt
  rcases List.mem_append.mp hg with hg | hg
  swap
  · exact hs g (List.mem_cons_of_mem _ hg) hgt
  have hf := hs f List.mem_cons_self
  have norep : ∀ {sender : Addr} {m : CosmosMsg} {id : Option Nat} {cr : Option Addr},
      f = .msg sender ⟨m, id⟩ → g ∈ replyFrame sender id cr → False := by
    intro sender m id cr hfe hr
    obtain ⟨i, rfl, rfl⟩ := mem_replyFrame hr
    subst hfe
    obtain ⟨_, _, _, _, hm'⟩ := hf hgt
    cases hm'
  have msgs : ∀ {me : Addr} {ms : List SubMsg} {adm' : Option Addr} {cs : CState}, w.contracts me = some ⟨adm', cs⟩ →
      (∀ st, cs ≠ .token st) → g ∈ ms.map (Frame.msg me) → False := by
    intro me ms adm' cs hc hcs hm
    simp only [List.mem_map] at hm
    obtain ⟨sm, _, rfl⟩ := hm
    simp only [Frame.actor] at hgt
    subst hgt
    rw [ht] at hc
    cases hc
    exact hcs _ rfl
  cases h with
  | bank | migrate | admin => exact (norep rfl hg).elim
  | token sender target em funds id me w1 admin s1 s' r hme hmv hrr hc hx =>
    rcases List.mem_append.mp hg with hg | hg
    · obtain ⟨sm, hsm, rfl⟩ := mem_frames hg
      simp only [Frame.actor] at hgt
      subst hgt
      obtain ⟨d, b, x, hk, rfl⟩ := Token.eff_out (Token.execute_inv hx) sm hsm
      exact ⟨_, _, _, _, rfl⟩
    · exact (norep rfl hg).elim
  | pair sender target em funds id me w1 admin s1 s' r hme hmv hrr hc hx
  | factory sender target em funds id me w1 admin s1 s' r hme hmv hrr hc hx
  | router sender target em funds id me w1 admin s1 s' r hme hmv hrr hc hx
  | other sender target em funds id me w1 admin ms hme hmv hc =>
    rcases List.mem_append.mp hg with hg | hg
    · exact (msgs hc (fun _ h => by cases h) hg).elim
    · exact (norep rfl hg).elim
  | inst sender admin codeId em funds id kk adm2 w1 s1 fs2 hk hadm hnew hmv hx =>
    rcases List.mem_append.mp hg with hg | hg
    · obtain ⟨sm, rfl⟩ := callInstantiate_frames hx g hg
      simp only [Frame.actor] at hgt
      rw [hgt, ht] at hnew
      cases hnew
    · exact (norep rfl hg).elim
  | replyPair me _ _ admin s1 s' r hc hx | replyFactory me _ _ admin s1 s' r hc hx
  | replyOther me _ _ admin ms hc => exact (msgs hc (fun _ h => by cases h) hg).elim

namespace PairSite
variable {c : Chain} {k : PairSite}

/-- A pair stays as it is, whoever acts, until its code or that of one of its assets is replaced. -/
theorem Good.stays {adv : Adv} {n : Nat} {v v' : World} {f : Frame} {fs rest : List Frame} (hg : k.Good v)
    (hsane : Sane c v (f :: rest)) (hset : Settled k.a (f :: rest)) (h : StepI c adv n v f v' fs) :
    k.Broken v' ∨ (k.Good v' ∧ Settled k.a (fs ++ rest)) := by
  rcases hset.step hg.pair h with ⟨adm', h1, _, h2⟩ | ⟨h1, _⟩
  swap
  · exact .inl (.inl ⟨_, h1⟩)
  have honest : ∀ i, Honest v i → Honest v' i ∨ ∃ t adm, i = .token t ∧ v'.contracts t = some ⟨adm, .other⟩ := by
    intro i hi
    cases i with
    | native d => exact .inl (fun _ h => by cases h)
    | token t =>
      obtain ⟨adm, st, hst⟩ := hi t rfl
      rcases tok_step h hst with ⟨adm', e, _⟩ | e | ⟨_, _, _, _, _, s', _, _, _, _, e, _⟩
      · exact .inl (fun _ ht => by cases ht; exact ⟨_, _, e⟩)
      · exact .inr ⟨t, _, rfl, e⟩
      · exact .inl (fun _ ht => by cases ht; exact ⟨_, _, e⟩)
  obtain ⟨st, hl, hm⟩ := hg.lp
  rcases honest _ hg.asset0 with a0 | ⟨t, adm, e, a0⟩
  swap
  · exact .inl (.inr ⟨t, adm, .inl e, a0⟩)
  rcases honest _ hg.asset1 with a1 | ⟨t, adm, e, a1⟩
  swap
  · exact .inl (.inr ⟨t, adm, .inr e, a1⟩)
  refine .inr ⟨⟨⟨_, h1⟩, a0, a1, ?_⟩, h2⟩
  rcases LPat.step hsane h hg.pair (.inl ⟨st, hl, hm⟩) with h3 | h3
  · exact h3
  · obtain ⟨s', h4⟩ := tok_noadmin h hl
    rw [h3] at h4
    cases h4

theorem priceQuote_of {o a x r s cm : Nat} (ho : o < B128) (ha : a < B128) (hx : x < B128)
    (h : Pair.computeSwap o a x = .ok (r, s, cm)) : PriceQuote o a x r s cm := by
  obtain ⟨h1, h2, h3, h4, h5, h6, h7, h8⟩ := (computeSwap_ok_iff ho ha hx).mp h
  have hD : DF = 10 ^ 18 := by norm_num [DF]
  have hi : idealOf o a x = ideal o a x := by unfold idealOf ideal; rw [hD]
  rw [← gross_eq, hi] at h4 h5 h8
  rw [← gross_eq] at h6 h7
  rw [hD] at h2 h3
  exact ⟨h1, h2, h3, h4, h5, by rw [h7, h6]; rfl, h8, h6⟩

/-- The LP tokens of an accepted deposit. -/
theorem Good.share_due {adv : Adv} {n : Nat} {v w1 : World} {sender : Addr} {funds : List Coin}
    {assets : Asset × Asset} {tol : Option Nat} {receiver : Option Str} {r : Response} {p0 p1 : Asset} {d0 d1 : Nat}
    {lt : Addr} {ti : TokenInfoResp} {share : Nat}
    (hg : k.Good v) (hx : k.Ctx c) (hne : sender ≠ k.a) (hmv : moveCoins v sender k.a funds = .ok w1)
    (hs : Pair.ProvideOk c.api (querier c (adv.query n) w1) k.a k.s sender funds assets tol receiver r p0 p1 d0 d1 lt ti
      share) :
    Pair.depositFor assets k.i0 = .ok d0 ∧ Pair.depositFor assets k.i1 = .ok d1 ∧ share = due (k.pool v) d0 d1 := by
  have hm := moveCoins_inv hmv
  have hnd : (funds.map Coin.denom).Nodup := by
    unfold moveCoins at hmv
    simp only [bind_eq_ok, require_eq_ok] at hmv
    obtain ⟨_, h1, _⟩ := hmv
    simpa using h1
  have hg1 : k.Good w1 := hg.tokOnly (fun b => .inl (congrFun hm.contracts b))
  have hlt := hs.h_lt
  rw [hx.lp] at hlt
  cases hlt
  obtain ⟨e0, e1, a0, a1, _, _⟩ := hg1.pools hx hs.h_pools
  obtain ⟨st, hl, hmint⟩ := hg1.lp
  have hS := tokenInfo_supply hx.resolveLp hl hs.h_supply
  have hS' : supplyAt w1 k.lt = supplyAt v k.lt := supplyAt_congr (congrFun hm.contracts _)
  have arrived : ∀ i d, Pair.depositFor assets i = .ok d →
      held w1 i k.a = held v i k.a + (if i.isNative then d else 0) := by
    intro i d hd
    cases i with
    | token t =>
      simp only [AssetInfo.isNative, Bool.false_eq_true, ↓reduceIte, Nat.add_zero]
      exact held_congr (fun _ h => by cases h) (fun t _ => congrFun hm.contracts t)
    | native dn =>
      have : coinSum dn funds = d := by
        rcases Pair.depositFor_eq_ok.mp hd with ⟨h1, rfl⟩ | ⟨_, h1, rfl⟩
        · exact coinSum_of_sent hnd h1 hs.h_sent0
        · exact coinSum_of_sent hnd h1 hs.h_sent1
      simp only [held, AssetInfo.isNative, ↓reduceIte]
      rw [hm.dst_bal hne, this]
  have q0 := arrived _ _ hs.h_d0
  have q1 := arrived _ _ hs.h_d1
  have prior : ∀ (p : Asset) d, p.amount = held v p.info k.a + (if p.info.isNative then d else 0) →
      Pair.priorPool p d = held v p.info k.a := by
    intro p d hp
    unfold Pair.priorPool
    cases hi : p.info with
    | token t => rw [hi] at hp; simpa [AssetInfo.isNative] using hp
    | native dn => rw [hi] at hp; simp only [AssetInfo.isNative, ↓reduceIte] at hp ⊢; omega
  have t0 := prior p0 d0 (by rw [← q0, e0, a0])
  have t1 := prior p1 d1 (by rw [← q1, e1, a1])
  rw [e0] at t0
  rw [e1] at t1
  have hshare := hs.h_share
  rw [t0, t1, hS, hS'] at hshare
  have hd0 := hs.h_d0
  have hd1 := hs.h_d1
  rw [e0] at hd0
  rw [e1] at hd1
  refine ⟨hd0, hd1, ?_⟩
  unfold Pair.shareFor at hshare
  unfold due
  simp only [pool]
  by_cases h0 : supplyAt v k.lt = 0
  · simp only [h0, ↓reduceIte, bind_eq_ok, require_eq_ok, Uint128.mulChk_eq_ok, pure_eq_ok, Uint128.isqrt] at hshare ⊢
    obtain ⟨_, _, _, _, _, ⟨_, rfl⟩, rfl⟩ := hshare
    rfl
  · simp only [h0, ↓reduceIte, bind_eq_ok, Uint128.multiplyRatio_eq_ok, pure_eq_ok] at hshare ⊢
    obtain ⟨_, ⟨n0, _, rfl⟩, _, ⟨n1, _, rfl⟩, rfl⟩ := hshare
    rfl

/-- What the pair announces is what it was asked for. -/
theorem Good.reports {adv : Adv} {n : Nat} {v v' : World} {f : Frame} {fs rest : List Frame} (hg : k.Good v)
    (hx : k.Ctx c) (hsane : Sane c v (f :: rest)) (hset : Settled k.a (f :: rest))
    (hcalm : ∀ t, (t = k.lt ∨ .token t = k.i0 ∨ .token t = k.i1) → Notices t (f :: rest)) (h : StepI c adv n v f v' fs) :
    List.Forall₂ (Reports k.i0 k.i1) (k.calls c [(v, f)]) (saidBy k.a (said c adv n v f)) := by
  have quiet : k.callOf c (v, f) = none → saidBy k.a (said c adv n v f) = [] →
      List.Forall₂ (Reports k.i0 k.i1) (k.calls c [(v, f)]) (saidBy k.a (said c adv n v f)) := by
    intro h1 h2
    rw [h2, calls_none h1]
    exact .nil
  have notme : ∀ {me adm s}, v.contracts me = some ⟨adm, s⟩ → (∀ p, s ≠ .pair p) → me ≠ k.a := by
    rintro me adm s h1 h2 rfl
    rw [hg.pair] at h1
    cases h1
    exact h2 _ rfl
  have h0 := h
  cases h with
  | bank | migrate | admin | inst => exact quiet rfl rfl
  | token sender target em funds id me w1 admin s1 s' r hme hmv hrr hc hxx
  | factory sender target em funds id me w1 admin s1 s' r hme hmv hrr hc hxx
  | router sender target em funds id me w1 admin s1 s' r hme hmv hrr hc hxx =>
    have hne := notme hc (fun _ h => by cases h)
    exact quiet (callOf_ne hme hne _ _ _ _ _) (saidBy_other hme hne)
  | other sender target em funds id me w1 admin ms hme hmv hc =>
    have hne := notme hc (fun _ h => by cases h)
    exact quiet (callOf_ne hme hne _ _ _ _ _) (saidBy_other hme hne)
  | replyPair me id cr admin s1 s' r hc hxx =>
    have hne : me ≠ k.a := by
      rintro rfl
      obtain ⟨m, hm⟩ := hset _ List.mem_cons_self rfl
      cases hm
    exact quiet rfl (saidBy_ne hne _)
  | replyFactory me id cr admin s1 s' r hc hxx => exact quiet rfl (saidBy_ne (notme hc (fun _ h => by cases h)) _)
  | replyOther me id cr admin ms hc => exact quiet rfl (saidBy_ne (notme hc (fun _ h => by cases h)) _)
  | pair sender target em funds id me w1 admin s1 s' r hme hmv hrr hc hxx =>
    by_cases hd : me = k.a
    swap
    · exact quiet (callOf_ne hme hd _ _ _ _ _) (saidBy_other hme hd)
    subst hd
    have hm := moveCoins_inv hmv
    have hc' := hg.pair
    rw [hc] at hc'
    cases hc'
    have hg1 : k.Good w1 := hg.tokOnly (fun b => .inl (congrFun hm.contracts b))
    have hc1 : w1.contracts k.a = some ⟨_, .pair k.s⟩ := (congrFun hm.contracts _).trans hc
    have hsaid : saidBy k.a (said c adv n v (.msg sender ⟨.exec target em funds, id⟩)) = r.events := by
      simp only [said, hme, hmv, hc1, hxx, eventsOf]
      exact saidBy_self _ _
    rw [hsaid]
    have hto : k.toPair c target = true := by simp [toPair, hme]
    rcases Pair.execute_inv hxx with ⟨_, x, bp, ms, to_, rfl, hex⟩ | ⟨_, x, rfl, hex⟩ | ⟨as, tol, rc, rfl, hex⟩
    · obtain ⟨_, _, o, a, od, ad, ret, sp, cm, hs⟩ := Pair.receive_swap_inv (funds := funds) hex
      have hio : o.info = .token sender := hs.h_info.symm
      have hxb : x < B128 := by
        simp only [ExecMsg.inRange, Bool.and_eq_true, decide_eq_true_eq] at hrr
        exact hrr.1
      have hfu : (.token sender = k.i0 ∨ .token sender = k.i1) → w1 = v := by
        intro ht
        obtain ⟨_, _, _, _, hm'⟩ := hcalm sender (.inr ht) _ List.mem_cons_self rfl
        cases hm'
        exact moveCoins_nil.mp hmv
      have hle : x ≤ o.amount := hs.h_le
      have hpr : Pair.computeSwap (o.amount - x) a.amount x = .ok (ret, sp, cm) := hs.h_price
      rw [hs.h_resp]
      rcases hs.h_pools with ⟨hq, _⟩ | ⟨hq, _⟩
      · obtain ⟨e0, e1, a0, a1, b0, b1⟩ := hg1.pools hx hq
        have hw := hfu (.inl (hio.symm.trans e0))
        subst hw
        have hi : k.i0 = .token sender := e0.symm.trans hio
        rw [calls_some (x := (⟨(k.pool w1).r0 - x, (k.pool w1).r1, (k.pool w1).supply⟩, .swap0 x))
          (by simp [callOf, hto, hi])]
        refine .cons ⟨hi.symm, e1, rfl, ?_⟩ .nil
        have := priceQuote_of (by omega) b1 hxb hpr
        rw [a0, a1] at this
        exact this
      · obtain ⟨e0, e1, a0, a1, b0, b1⟩ := hg1.pools hx hq
        have hw := hfu (.inr (hio.symm.trans e1))
        subst hw
        have hi : k.i1 = .token sender := e1.symm.trans hio
        have hn : k.i0 ≠ .token sender := fun h => hx.ne (h.trans hi.symm)
        rw [calls_some (x := (⟨(k.pool w1).r0, (k.pool w1).r1 - x, (k.pool w1).supply⟩, .swap1 x))
          (by simp [callOf, hto, hn, hi])]
        refine .cons ⟨hi.symm, e0, rfl, ?_⟩ .nil
        have := priceQuote_of (by omega) b0 hxb hpr
        rw [a0, a1] at this
        exact this
    · obtain ⟨_, hcan, _, p0, p1, lt, ti, ratio, r0, r1, hs⟩ := Pair.receive_withdraw_inv (funds := funds) hex
      have hsl : sender = k.lt := hsane.actor_eq hx.law List.mem_cons_self (f := .msg sender _) hcan hx.lp
      obtain ⟨_, _, _, _, hm'⟩ := hcalm sender (.inl hsl) _ List.mem_cons_self rfl
      cases hm'
      have hw : w1 = v := moveCoins_nil.mp hmv
      subst hw
      obtain ⟨e0, e1, a0, a1, _, _⟩ := hg1.pools hx hs.h_pools
      have hlt := hs.h_lt
      rw [hx.lp] at hlt
      cases hlt
      obtain ⟨st, hl, _⟩ := hg1.lp
      have hT := tokenInfo_supply hx.resolveLp hl hs.h_supply
      have hratio := hs.h_ratio
      have hr0 := hs.h_r0
      have hr1 := hs.h_r1
      simp only [Uint128.decFromRatio_eq_ok] at hratio
      simp only [Uint128.mulDecimal_eq_ok] at hr0 hr1
      have hD : DF = 10 ^ 18 := by norm_num [DF]
      rw [hD] at hratio hr0 hr1
      rw [hT] at hratio
      rw [hs.h_resp, calls_some (x := (k.pool w1, .withdraw x)) (by simp [callOf, hto])]
      refine .cons ⟨rfl, ?_⟩ .nil
      rw [e0, e1, hr0.2, hr1.2, hratio.2.2, a0, a1]
      rfl
    · have hne : sender ≠ k.a := by
        intro he
        cases hsane.pairFrames k.a _ _ hc _ List.mem_cons_self he with
        | out _ ho => exact absurd ho (by simp [Pair.OutMsg])
      obtain ⟨_, p0, p1, d0, d1, lt, ti, share, hs⟩ := Pair.provide_inv hex
      obtain ⟨h0, h1, h2⟩ := hg.share_due hx hne hmv hs
      rw [hs.h_resp, calls_some (x := (k.pool v, .deposit (named k.i0 as) (named k.i1 as))) (by simp [callOf, hto])]
      rw [named_eq h0, named_eq h1]
      refine .cons ⟨?_, h2⟩ .nil
      rcases Pair.depositFor_eq_ok.mp h0 with ⟨i0, rfl⟩ | ⟨i0, j0, rfl⟩ <;>
        rcases Pair.depositFor_eq_ok.mp h1 with ⟨i1, rfl⟩ | ⟨i1, j1, rfl⟩
      · exact absurd (i0.symm.trans i1) hx.ne
      · exact .inl (by rw [← i0, ← j1])
      · exact .inr (by rw [← i1, ← j0])
      · exact absurd (j0.symm.trans j1) hx.ne

/-- A pair being watched inside a transaction. -/
structure Watched (k : PairSite) (c : Chain) (v : World) (fs : List Frame) : Prop where
  good : k.Good v
  sane : Sane c v fs
  settled : Settled k.a fs
  calm : ∀ t, (t = k.lt ∨ .token t = k.i0 ∨ .token t = k.i1) → Notices t fs

theorem Good.tokens {v : World} (hg : k.Good v) {t : Addr} (ht : t = k.lt ∨ .token t = k.i0 ∨ .token t = k.i1) :
    ∃ adm st, v.contracts t = some ⟨adm, .token st⟩ := by
  rcases ht with rfl | h | h
  · obtain ⟨st, h, _⟩ := hg.lp
    exact ⟨_, _, h⟩
  · exact hg.asset0 t h.symm
  · exact hg.asset1 t h.symm

theorem Watched.start {v : World} (hv : Reachable c v) (hg : k.Good v) {signer : Addr} (hu : c.IsUser signer)
    (m : CosmosMsg) : k.Watched c v [.msg signer (plain m)] := by
  refine ⟨hg, hv.sane.start hu m, Settled.start hv.contractsAt hu hg.pair m, fun t ht => ?_⟩
  obtain ⟨adm, st, h⟩ := hg.tokens ht
  exact Notices.start hv.contractsAt hu h m

theorem Watched.step {adv : Adv} {n : Nat} {v v' : World} {f : Frame} {fs rest : List Frame}
    (hw : k.Watched c v (f :: rest)) (h : StepI c adv n v f v' fs) : k.Broken v' ∨ k.Watched c v' (fs ++ rest) := by
  rcases hw.good.stays hw.sane hw.settled h with h1 | ⟨h1, h2⟩
  · exact .inl h1
  · refine .inr ⟨h1, hw.sane.step h, h2, fun t ht => ?_⟩
    obtain ⟨adm, st, h3⟩ := hw.good.tokens ht
    exact (hw.calm t ht).step h3 h

/-- In every machine state of a transaction. -/
theorem Watched.comes {adv : Adv} {n0 n : Nat} {w v : World} {fs0 fs : List Frame}
    (hw : k.Watched c w fs0) (h : Comes c adv n0 w fs0 n v fs) : k.Broken v ∨ k.Watched c v fs :=
  h.all (P := fun v fs => k.Broken v ∨ k.Watched c v fs) (.inr hw) (fun _ _ _ _ _ _ hp hs => by
    rcases hp with hp | hp
    · exact .inl (hp.step hs)
    · exact hp.step hs)

/-- The announcements made while some frames run. -/
theorem Watched.run_reports {adv : Adv} (hx : k.Ctx c) : ∀ {n n' : Nat} {v v' : World} {fs : List Frame},
    k.Watched c v fs → Halo.run c adv n v fs = .ok (n', v') →
    k.Broken v' ∨ List.Forall₂ (Reports k.i0 k.i1) (k.calls c (trace c adv n v fs)) (saidBy k.a (log c adv n v fs)) := by
  intro n
  induction n with
  | zero =>
    intro n' v v' fs hw hr
    cases fs with
    | nil => exact .inr .nil
    | cons => cases hr
  | succ n ih =>
    intro n' v v' fs hw hr
    cases fs with
    | nil => exact .inr .nil
    | cons f fs =>
      obtain ⟨m, w1, fs1, he, hs, hr⟩ := run_cons_inv hr
      cases he
      rcases hw.step (step_inv hs) with hb | hw1
      · exact .inl (hb.run hr)
      rcases ih hw1 hr with hb | h1
      · exact .inl hb
      refine .inr ?_
      rw [trace_cons hs, log_cons hs, saidBy_append, ← List.singleton_append, calls_append]
      exact List.rel_append (hw.good.reports hx hw.sane hw.settled hw.calm (step_inv hs)) h1

/-- The announcements of a history. -/
theorem Good.logged_reports (hx : k.Ctx c) {w w' : World} (hw : Reachable c w) (hg : k.Good w)
    {tr : List (World × Frame)} {es : List (Addr × Event)} (hl : Logged c w tr es w') :
    k.Broken w' ∨ List.Forall₂ (Reports k.i0 k.i1) (k.calls c tr) (saidBy k.a es) := by
  induction hl with
  | refl => exact .inr .nil
  | tx tr es adv gas v w' signer m hl hu hxx ih =>
    have hv := hw.later hl.hist.later
    obtain ⟨n, hr⟩ := runTx_inv hxx
    rcases hg.hist hx hw hl.hist with hb | ⟨hg', _⟩
    · exact .inl (hb.run hr)
    rcases ih with hb | h1
    · exact .inl (hb.run hr)
    rcases (Watched.start hv hg' hu m).run_reports hx hr with hb | h2
    · exact .inl hb
    · rw [calls_append, saidBy_append]
      exact .inr (List.rel_append h1 h2)
  | block tr es v b hl ih => exact ih
  | env tr es v bank' hl hb ih => exact ih

/-- Somebody who only reads announcements can tell how much is at least in the pool, and how many LP tokens there are at
most. -/
theorem _root_.Halo.Spec.Path.book {i0 i1 : AssetInfo} (hne : i0 ≠ i1) {p q : Pool} {cs : List (Pool × Call)}
    (h : Path p cs q) : ∀ {es : List Event} {b : Tally}, List.Forall₂ (Reports i0 i1) cs es →
    b.r0 ≤ p.r0 → b.r1 ≤ p.r1 → (p.supply : Int) ≤ b.supply →
    (b.of i0 es).r0 ≤ q.r0 ∧ (b.of i0 es).r1 ≤ q.r1 ∧ (q.supply : Int) ≤ (b.of i0 es).supply := by
  induction h with
  | done p q h =>
    intro es b hes h0 h1 h2
    cases hes
    have := h.r0; have := h.r1; have := h.supply
    refine ⟨?_, ?_, ?_⟩ <;> simp only [Tally.of, List.foldl_nil] <;> omega
  | call p c q r l rest hd ha hp ih =>
    intro es b hes h0 h1 h2
    cases hes with
    | @cons _ e _ es' he hes =>
    have := hd.r0; have := hd.r1; have := hd.supply
    suffices (b.add i0 e).r0 ≤ q.r0 ∧ (b.add i0 e).r1 ≤ q.r1 ∧ (q.supply : Int) ≤ (b.add i0 e).supply by
      have h3 := ih hes this.1 this.2.1 this.2.2
      exact h3
    cases ha with
    | swap0 _ x ho hle =>
      cases e with
      | swap s d o a y r sp cm =>
        obtain ⟨rfl, rfl, rfl, hq⟩ := he
        have := hq.amount
        simp only [Tally.add, ↓reduceIte]
        omega
      | _ => exact he.elim
    | swap1 _ x ho hle =>
      cases e with
      | swap s d o a y r sp cm =>
        obtain ⟨rfl, rfl, rfl, hq⟩ := he
        have := hq.amount
        simp only [Tally.add, hne.symm, ↓reduceIte]
        omega
      | _ => exact he.elim
    | init _ d0 d1 hS hpos =>
      cases e with
      | provideLiquidity s d as sh =>
        obtain ⟨has, hsh⟩ := he
        have : sh = Nat.sqrt (d0 * d1) := by rw [hsh]; simp [due, hS]
        rcases has with rfl | rfl
        · simp only [Tally.add, ↓reduceIte]; omega
        · simp only [Tally.add, hne.symm, ↓reduceIte]; omega
      | _ => exact he.elim
    | deposit _ d0 d1 sh' hS n0 n1 hs hpos =>
      cases e with
      | provideLiquidity s d as sh =>
        obtain ⟨has, hsh⟩ := he
        have : sh = sh' := by rw [hsh, hs]; simp [due, hS]
        rcases has with rfl | rfl
        · simp only [Tally.add, ↓reduceIte]; omega
        · simp only [Tally.add, hne.symm, ↓reduceIte]; omega
      | _ => exact he.elim
    | withdraw _ x hxs hpos hr0 hr1 =>
      cases e with
      | withdrawLiquidity s y rf =>
        obtain ⟨rfl, rfl⟩ := he
        simp only [Tally.add]
        omega
      | _ => exact he.elim

end PairSite
end Halo
