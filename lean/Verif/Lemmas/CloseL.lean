import Verif.Spec.Close
import Verif.Props.Replay
import Verif.Lemmas.SettleL
/-! # Keeping accounts of what is under way (helper lemmas for C102)

While a transaction runs, the reserves differ from what has been announced by what is under way: tokens that have arrived and are
not announced yet, payments that are announced and not made yet. -/

namespace Halo
open _root_.Halo.Spec

/-- The coins `d` that reach the pair `p` as a gift: paid by a bank message or attached to a call other than a deposit. -/
def coinGift (c : Chain) (d : Denom) (p : Addr) : Frame → Nat
  | .msg _ ⟨.bankSend a coins, _⟩ => if c.api.resolve a = .ok p then coinSum d coins else 0
  | .msg _ ⟨.exec _ (.provideLiquidity _ _ _) _, _⟩ => 0
  | .msg _ ⟨.exec a _ fu, _⟩ => if c.api.resolve a = .ok p then coinSum d fu else 0
  | _ => 0

/-- What is under way in a list of frames. -/
def wsum (wt : Frame → Int) (fs : List Frame) : Int := (fs.map wt).sum

theorem wsum_append (wt : Frame → Int) (fs gs : List Frame) : wsum wt (fs ++ gs) = wsum wt fs + wsum wt gs := by simp [wsum]

theorem wsum_zero {wt : Frame → Int} {fs : List Frame} (h : ∀ g ∈ fs, wt g = 0) : wsum wt fs = 0 := by
  unfold wsum
  apply List.sum_eq_zero
  intro x hx
  obtain ⟨g, hg, rfl⟩ := List.mem_map.mp hx
  exact h g hg

/-- What is booked for some calls of a token. -/
def nsum (net : Entry → Int) (l : List Entry) : Int := (l.map net).sum

/-- What is announced. -/
def vsum (val : Event → Int) (l : List Event) : Int := (l.map val).sum

namespace PairSite
variable {c : Chain} {k : PairSite}

/-- Only messages from the pair to the token `T`, and from it to the pair, count. -/
structure Weigh (k : PairSite) (c : Chain) (T : Addr) (wt : Frame → Int) : Prop where
  reply : ∀ a id cr, wt (.reply a id cr) = 0
  far : ∀ u sm, u ≠ k.a → u ≠ T → wt (.msg u sm) = 0
  miss : ∀ u a m fu id me, c.api.resolve a = .ok me → me ≠ T → me ≠ k.a → wt (.msg u ⟨.exec a m fu, id⟩) = 0
  idle : ∀ u m id, (∀ a em fu, m ≠ .exec a em fu) → wt (.msg u ⟨m, id⟩) = 0

/-- The pair and its LP token run the code of the project, and `T` is a token. Nothing is said of the other assets. -/
structure Open (k : PairSite) (T : Addr) (v : World) : Prop where
  live : ∃ adm, v.contracts k.a = some ⟨adm, .pair k.s⟩
  tok : ∃ adm st, v.contracts T = some ⟨adm, .token st⟩
  lp : ∃ st, v.contracts k.lt = some ⟨none, .token st⟩ ∧ st.mint = some ⟨k.a, none⟩

/-- The pair's current admin. -/
noncomputable def Open.adm {T : Addr} {v : World} (h : k.Open T v) : Option Addr := h.live.choose

theorem Open.pair {T : Addr} {v : World} (h : k.Open T v) : v.contracts k.a = some ⟨h.adm, .pair k.s⟩ := h.live.choose_spec

/-- The code of the pair or of the token has been replaced. -/
def Gone (k : PairSite) (T : Addr) (v : World) : Prop :=
  (∃ adm, v.contracts k.a = some ⟨adm, .other⟩) ∨ ∃ adm, v.contracts T = some ⟨adm, .other⟩

theorem Gone.step {T : Addr} {adv : Adv} {n : Nat} {v v' : World} {f : Frame} {fs : List Frame} (hb : k.Gone T v)
    (h : StepI c adv n v f v' fs) : k.Gone T v' := by
  rcases hb with ⟨_, hb⟩ | ⟨_, hb⟩
  · exact .inl ((other_step h hb).imp fun _ h => h.1)
  · exact .inr ((other_step h hb).imp fun _ h => h.1)

theorem Gone.run {T : Addr} {adv : Adv} {n n' : Nat} {v v' : World} {fs : List Frame} (hb : k.Gone T v)
    (h : Halo.run c adv n v fs = .ok (n', v')) : k.Gone T v' :=
  run_induct (P := fun v _ => k.Gone T v) (fun _ _ _ _ _ _ hp hs => hp.step hs) hb h

/-- A token without an admin stays a token. -/
theorem tok_noadmin_run {t : Addr} {adv : Adv} {n n' : Nat} {v v' : World} {fs : List Frame} {st : TokenState}
    (h : v.contracts t = some ⟨none, .token st⟩) (hr : Halo.run c adv n v fs = .ok (n', v')) :
    ∃ st', v'.contracts t = some ⟨none, .token st'⟩ :=
  run_induct (P := fun v _ => ∃ st, v.contracts t = some ⟨none, .token st⟩) (fun _ _ _ _ _ _ ⟨_, hp⟩ hs => tok_noadmin hs hp) ⟨st, h⟩ hr

theorem tok_noadmin_hist {t : Addr} {w w' : World} {st : TokenState} (h : w.contracts t = some ⟨none, .token st⟩)
    {tr : List (World × Frame)} (hl : Hist c w tr w') : ∃ st', w'.contracts t = some ⟨none, .token st'⟩ := by
  induction hl with
  | refl => exact ⟨_, h⟩
  | tx tr adv gas v w' signer m hl hu hxx ih =>
    obtain ⟨n, hr⟩ := runTx_inv hxx
    obtain ⟨st', h'⟩ := ih
    exact tok_noadmin_run h' hr
  | block tr v b hl ih => exact ih
  | env tr v bank' hl hb ih => exact ih

/-- A machine state in which it is so. -/
structure Seen (k : PairSite) (c : Chain) (T : Addr) (v : World) (fs : List Frame) : Prop where
  good : k.Open T v
  sane : Sane c v fs
  settled : Settled k.a fs

theorem Seen.start {T : Addr} {v : World} (hv : Reachable c v) (hg : k.Open T v) {signer : Addr} (hu : c.IsUser signer)
    (m : CosmosMsg) : k.Seen c T v [.msg signer (plain m)] :=
  ⟨hg, hv.sane.start hu m, Settled.start hv.contractsAt hu hg.pair m⟩

theorem Seen.step {T : Addr} {adv : Adv} {n : Nat} {v v' : World} {f : Frame} {fs rest : List Frame}
    (hw : k.Seen c T v (f :: rest)) (h : StepI c adv n v f v' fs) : k.Gone T v' ∨ k.Seen c T v' (fs ++ rest) := by
  obtain ⟨hg, hsane, hset⟩ := hw
  rcases hset.step hg.pair h with ⟨adm', h1, _, h2⟩ | ⟨h1, _⟩
  swap
  · exact .inl (.inl ⟨_, h1⟩)
  obtain ⟨admT, sT, hT⟩ := hg.tok
  obtain ⟨st, hl, hm⟩ := hg.lp
  have lp : ∃ st, v'.contracts k.lt = some ⟨none, .token st⟩ ∧ st.mint = some ⟨k.a, none⟩ := by
    rcases LPat.step hsane h hg.pair (.inl ⟨st, hl, hm⟩) with h3 | h3
    · exact h3
    · obtain ⟨s', h4⟩ := tok_noadmin h hl
      rw [h3] at h4
      cases h4
  rcases tok_step h hT with ⟨_, e, _⟩ | e | ⟨_, _, _, _, _, s', _, _, _, _, e, _⟩
  · exact .inr ⟨⟨⟨_, h1⟩, ⟨_, _, e⟩, lp⟩, hsane.step h, h2⟩
  · exact .inl (.inr ⟨_, e⟩)
  · exact .inr ⟨⟨⟨_, h1⟩, ⟨_, _, e⟩, lp⟩, hsane.step h, h2⟩

theorem Seen.run {T : Addr} {adv : Adv} {n n' : Nat} {v v' : World} {fs : List Frame} (hw : k.Seen c T v fs)
    (h : Halo.run c adv n v fs = .ok (n', v')) : k.Gone T v' ∨ k.Open T v' := by
  have := run_induct (P := fun v fs => k.Gone T v ∨ k.Seen c T v fs) (fun _ _ _ _ _ _ hp hs =>
    hp.elim (fun h => .inl (h.step hs)) (fun h => h.step hs)) (.inr hw) h
  exact this.imp id fun h => h.good

/-- Over a history. -/
theorem Open.hist {T : Addr} {w w' : World} (hw : Reachable c w) (hg : k.Open T w) {tr : List (World × Frame)}
    (hl : Hist c w tr w') : k.Gone T w' ∨ k.Open T w' := by
  induction hl with
  | refl => exact .inr hg
  | tx tr adv gas v w' signer m hl hu hxx ih =>
    obtain ⟨n, hr⟩ := runTx_inv hxx
    rcases ih with hb | hg'
    · exact .inl (hb.run hr)
    · exact (Seen.start (hw.later hl.later) hg' hu m).run hr
  | block tr v b hl ih => exact ih.imp id fun h => ⟨h.live, h.tok, h.lp⟩
  | env tr v bank' hl hb ih => exact ih.imp id fun h => ⟨h.live, h.tok, h.lp⟩

/-- One step: what the token's books gain is what has come under way and what has been announced. -/
theorem Seen.weighs {adv : Adv} {n : Nat} {v v' : World} {f : Frame} {fs rest : List Frame} {T : Addr} {wt : Frame → Int}
    {net : Entry → Int} {val : Event → Int} (hW : k.Weigh c T wt)
    (hw : k.Seen c T v (f :: rest)) (h : StepI c adv n v f v' fs)
    (htok : ∀ sender target em funds id admin s s' r, f = .msg sender ⟨.exec target em funds, id⟩ → c.api.resolve target = .ok T →
      v.contracts T = some ⟨admin, .token s⟩ → Token.execute c.api v.block s sender em = .ok (s', r) →
      net ⟨v.block, sender, em⟩ = wsum wt (frames T r) - wt f)
    (hpair : ∀ sender target em funds id w1 r, f = .msg sender ⟨.exec target em funds, id⟩ → c.api.resolve target = .ok k.a →
      moveCoins v sender k.a funds = .ok w1 → em.inRange = true →
      Pair.execute c.api (querier c (adv.query n) w1) k.a k.s sender funds em = .ok (k.s, r) →
      0 = wsum wt (frames k.a r) - wt f + vsum val r.events) :
    nsum net (tokenCall c T (v, f)).toList = wsum wt fs - wt f + vsum val (saidBy k.a (said c adv n v f)) := by
  obtain ⟨hg, hsane, hset⟩ := hw
  obtain ⟨admT, sT, hTc⟩ := hg.tok
  have hTa : T ≠ k.a := by
    rintro rfl
    rw [hg.pair] at hTc
    cases hTc
  have notme : ∀ {me adm s}, v.contracts me = some ⟨adm, s⟩ → (∀ p, s ≠ .pair p) → me ≠ k.a := by
    rintro me adm s h1 h2 rfl
    rw [hg.pair] at h1
    cases h1
    exact h2 _ rfl
  have nott : ∀ {me adm s}, v.contracts me = some ⟨adm, s⟩ → (∀ p, s ≠ .token p) → me ≠ T := by
    rintro me adm s h1 h2 rfl
    rw [hTc] at h1
    cases h1
    exact h2 _ rfl
  have rep : ∀ u id cr, wsum wt (replyFrame u id cr) = 0 := by
    intro u id cr
    refine wsum_zero fun g hg => ?_
    obtain ⟨i, _, rfl⟩ := mem_replyFrame hg
    exact hW.reply _ _ _
  have msgs : ∀ {me : Addr} (ms : List SubMsg), me ≠ k.a → me ≠ T → wsum wt (ms.map (Frame.msg me)) = 0 := by
    intro me ms h1 h2
    refine wsum_zero fun g hg => ?_
    obtain ⟨sm, _, rfl⟩ := List.mem_map.mp hg
    exact hW.far _ _ h1 h2
  have miss : ∀ {u : Addr} {a : Str} {m : ExecMsg} {fu : List Coin} {id : Option Nat} {me : Addr}, c.api.resolve a = .ok me → me ≠ T →
      tokenCall c T (v, .msg u ⟨.exec a m fu, id⟩) = none := by
    intro u a m fu id me hr hne
    simp only [tokenCall, hr, Except.ok.injEq, hne, ↓reduceIte]
  have quiet : tokenCall c T (v, f) = none → saidBy k.a (said c adv n v f) = [] → wt f = 0 → wsum wt fs = 0 →
      nsum net (tokenCall c T (v, f)).toList = wsum wt fs - wt f + vsum val (saidBy k.a (said c adv n v f)) := by
    intro h1 h2 h3 h4
    rw [h1, h2, h3, h4]
    rfl
  cases h with
  | bank _ _ _ _ _ _ _ _ _ => exact quiet rfl rfl (hW.idle _ _ _ (fun _ _ _ h => by cases h)) (rep _ _ _)
  | migrate | admin => exact quiet rfl rfl (hW.idle _ _ _ (fun _ _ _ h => by cases h)) (rep _ _ _)
  | inst sender admin codeId em funds id kk adm2 w1 s1 fs2 hk hadm hnew hmv hxx =>
    refine quiet rfl rfl (hW.idle _ _ _ (fun _ _ _ h => by cases h)) ?_
    rw [wsum_append, rep, add_zero]
    refine wsum_zero fun g hgm => ?_
    obtain ⟨sm, rfl⟩ := callInstantiate_frames hxx g hgm
    refine hW.far _ _ ?_ ?_
    · intro e; rw [e, hg.pair] at hnew; cases hnew
    · intro e; rw [e, hTc] at hnew; cases hnew
  | factory sender target em funds id me w1 admin s1 s' r hme hmv hrr hc hxx
  | router sender target em funds id me w1 admin s1 s' r hme hmv hrr hc hxx =>
    have h1 := notme hc (fun _ h => by cases h)
    have h2 := nott hc (fun _ h => by cases h)
    refine quiet (miss hme h2) (saidBy_other hme h1) (hW.miss _ _ _ _ _ _ hme h2 h1) ?_
    rw [wsum_append, rep, add_zero]
    exact msgs _ h1 h2
  | other sender target em funds id me w1 admin ms hme hmv hc =>
    have h1 := notme hc (fun _ h => by cases h)
    have h2 := nott hc (fun _ h => by cases h)
    refine quiet (miss hme h2) (saidBy_other hme h1) (hW.miss _ _ _ _ _ _ hme h2 h1) ?_
    rw [wsum_append, rep, add_zero]
    exact msgs _ h1 h2
  | replyPair me id cr admin s1 s' r hc hxx =>
    have h1 : me ≠ k.a := by
      rintro rfl
      obtain ⟨m, hm⟩ := hset _ List.mem_cons_self rfl
      cases hm
    have h2 := nott hc (fun _ h => by cases h)
    exact quiet rfl (saidBy_ne h1 _) (hW.reply _ _ _) (msgs _ h1 h2)
  | replyFactory me id cr admin s1 s' r hc hxx =>
    have h1 := notme hc (fun _ h => by cases h)
    have h2 := nott hc (fun _ h => by cases h)
    exact quiet rfl (saidBy_ne h1 _) (hW.reply _ _ _) (msgs _ h1 h2)
  | replyOther me id cr admin ms hc =>
    have h1 := notme hc (fun _ h => by cases h)
    have h2 := nott hc (fun _ h => by cases h)
    exact quiet rfl (saidBy_ne h1 _) (hW.reply _ _ _) (msgs _ h1 h2)
  | token sender target em funds id me w1 admin s1 s' r hme hmv hrr hc hxx =>
    have h1 := notme hc (fun _ h => by cases h)
    by_cases h2 : me = T
    swap
    · refine quiet (miss hme h2) (saidBy_other hme h1) (hW.miss _ _ _ _ _ _ hme h2 h1) ?_
      rw [wsum_append, rep, add_zero]
      exact msgs _ h1 h2
    subst h2
    have := htok _ _ _ _ _ _ _ _ _ rfl hme hc hxx
    rw [saidBy_other hme h1, wsum_append, rep, add_zero]
    simp only [tokenCall, hme, ↓reduceIte, Option.toList_some, nsum, vsum, List.map_cons, List.map_nil, List.sum_cons, List.sum_nil,
      add_zero]
    exact this
  | pair sender target em funds id me w1 admin s1 s' r hme hmv hrr hc hxx =>
    have h2 := nott hc (fun _ h => by cases h)
    by_cases hd : me = k.a
    swap
    · refine quiet (miss hme h2) (saidBy_other hme hd) (hW.miss _ _ _ _ _ _ hme h2 hd) ?_
      rw [wsum_append, rep, add_zero]
      exact msgs _ hd h2
    subst hd
    have hc' := hg.pair
    rw [hc] at hc'
    cases hc'
    have hc1 : w1.contracts k.a = some ⟨_, .pair k.s⟩ := (congrFun (moveCoins_inv hmv).contracts _).trans hc
    have hsaid : saidBy k.a (said c adv n v (.msg sender ⟨.exec target em funds, id⟩)) = r.events := by
      simp only [said, hme, hmv, hc1, hxx, eventsOf]
      exact saidBy_self _ _
    have hs := (Pair.execute_out hxx).1
    subst hs
    rw [hsaid, miss hme h2, wsum_append, rep, add_zero]
    exact hpair _ _ _ _ _ _ _ rfl hme hmv hrr hxx

/-- Over a run. -/
theorem Seen.run_weighs {adv : Adv} {T : Addr} {wt : Frame → Int} {net : Entry → Int} {val : Event → Int}
    (hstep : ∀ {n : Nat} {v v' : World} {f : Frame} {fs rest : List Frame}, k.Seen c T v (f :: rest) → StepI c adv n v f v' fs →
      nsum net (tokenCall c T (v, f)).toList = wsum wt fs - wt f + vsum val (saidBy k.a (said c adv n v f))) :
    ∀ {n n' : Nat} {v v' : World} {fs : List Frame}, k.Seen c T v fs → Halo.run c adv n v fs = .ok (n', v') →
    k.Gone T v' ∨ nsum net (tokenCalls c T (trace c adv n v fs)) + wsum wt fs = vsum val (saidBy k.a (log c adv n v fs)) := by
  intro n
  induction n with
  | zero =>
    intro n' v v' fs hw hr
    cases fs with
    | nil => exact .inr rfl
    | cons => cases hr
  | succ n ih =>
    intro n' v v' fs hw hr
    cases fs with
    | nil => exact .inr rfl
    | cons f fs =>
      obtain ⟨m, w1, fs1, he, hs, hr⟩ := run_cons_inv hr
      cases he
      have h0 := hstep hw (step_inv hs)
      rcases hw.step (step_inv hs) with hb | hw1
      · exact .inl (hb.run hr)
      rcases ih hw1 hr with hb | h1
      · exact .inl hb
      refine .inr ?_
      rw [trace_cons hs, log_cons hs, saidBy_append]
      rw [wsum_append] at h1
      have e1 : nsum net (tokenCalls c T ((v, f) :: trace c adv n w1 (fs1 ++ fs))) =
          nsum net (tokenCall c T (v, f)).toList + nsum net (tokenCalls c T (trace c adv n w1 (fs1 ++ fs))) := by
        rw [tokenCalls, List.filterMap_cons]
        cases tokenCall c T (v, f) <;> simp [nsum, tokenCalls]
      have e2 : wsum wt (f :: fs) = wt f + wsum wt fs := by simp [wsum]
      have e3 : ∀ l l', vsum val (l ++ l') = vsum val l + vsum val l' := by intros; simp [vsum]
      rw [e1, e2, e3]
      omega

/-- Over a history. -/
theorem Open.logged_weighs {T : Addr} {wt : Frame → Int} {net : Entry → Int} {val : Event → Int}
    (hstart : ∀ (w : World) (signer : Addr) (m : CosmosMsg), k.Open T w → Reachable c w → c.IsUser signer → wt (.msg signer (plain m)) = 0)
    (hstep : ∀ {adv : Adv} {n : Nat} {v v' : World} {f : Frame} {fs rest : List Frame}, k.Seen c T v (f :: rest) → StepI c adv n v f v' fs →
      nsum net (tokenCall c T (v, f)).toList = wsum wt fs - wt f + vsum val (saidBy k.a (said c adv n v f)))
    {w w' : World} (hw : Reachable c w) (hg : k.Open T w)
    {tr : List (World × Frame)} {es : List (Addr × Event)} (hl : Logged c w tr es w') :
    k.Gone T w' ∨ nsum net (tokenCalls c T tr) = vsum val (saidBy k.a es) := by
  induction hl with
  | refl => exact .inr rfl
  | tx tr es adv gas v w' signer m hl hu hxx ih =>
    have hv := hw.later hl.hist.later
    obtain ⟨n, hr⟩ := runTx_inv hxx
    rcases hg.hist hw hl.hist with hb | hg'
    · exact .inl (hb.run hr)
    rcases ih with hb | h1
    · exact .inl (hb.run hr)
    rcases (Seen.start hv hg' hu m).run_weighs hstep hr with hb | h2
    · exact .inl hb
    · refine .inr ?_
      have e1 : wsum wt [.msg signer (plain m)] = 0 := by simp [wsum, hstart v signer m hg' hv hu]
      rw [e1, add_zero] at h2
      rw [tokenCalls, List.filterMap_append, saidBy_append]
      have e2 : ∀ l l', nsum net (l ++ l') = nsum net l + nsum net l' := by intros; simp [nsum]
      have e3 : ∀ l l', vsum val (l ++ l') = vsum val l + vsum val l' := by intros; simp [vsum]
      rw [e2, e3]
      unfold tokenCalls at h1 h2
      omega
  | block tr es v b hl ih => exact ih
  | env tr es v bank' hl hb ih => exact ih

/-! ## An asset token -/

/-- What is under way of the asset token `t`. -/
def underWay (k : PairSite) (c : Chain) (t : Addr) : Frame → Int
  | .msg u ⟨.exec a (.transfer _ x) _, _⟩ => if u = k.a ∧ c.api.resolve a = .ok t then x else 0
  | .msg u ⟨.exec a (.burn x) _, _⟩ => if u = k.a ∧ c.api.resolve a = .ok t then x else 0
  | .msg u ⟨.exec a (.transferFrom _ d x) _, _⟩ => if u = k.a ∧ d = k.a ∧ c.api.resolve a = .ok t then -x else 0
  | .msg u ⟨.exec a (.receive _ x (.swap _ _ _)) _, _⟩ => if u = t ∧ c.api.resolve a = .ok k.a then x else 0
  | _ => 0

/-- What a call adds to the pair's account, gifts aside. -/
def assetNet (k : PairSite) (e : Entry) : Int := e.credits k.a - e.debits k.a - e.gift k.a

/-- What an announcement adds. -/
def assetVal (i : AssetInfo) (E : Event) : Int := gave i E - took i E

theorem underWay_weigh {t : Addr} (hta : t ≠ k.a) : k.Weigh c t (k.underWay c t) where
  reply := fun _ _ _ => rfl
  far := by
    rintro u ⟨m, id⟩ h1 h2
    cases m with
    | exec a em fu =>
      cases em <;> simp only [underWay, h1, false_and, ↓reduceIte]
      case receive _ _ hk => cases hk <;> simp only [underWay, h2, false_and, ↓reduceIte]
    | _ => rfl
  miss := by
    intro u a em fu id me h1 h2 h3
    cases em <;> simp only [underWay, h1, Except.ok.injEq, h2, and_false, ↓reduceIte]
    case receive _ _ hk => cases hk <;> simp only [underWay, h1, Except.ok.injEq, h3, and_false, ↓reduceIte]
  idle := by
    intro u m id h
    cases m with
    | exec a em fu => exact absurd rfl (h a em fu)
    | _ => rfl

/-- A pair has granted nobody an allowance. -/
theorem Seen.no_allowance {T : Addr} {v : World} {fs : List Frame} (hw : k.Seen c T v fs) {t : Addr} {adm : Option Addr} {s : TokenState}
    (ht : v.contracts t = some ⟨adm, .token s⟩) (sp : Addr) : s.allowances.get (k.a, sp) = none :=
  hw.sane.silent t adm s k.a ht (.inl ⟨_, _, hw.good.pair⟩) sp

theorem Seen.asset_token {T : Addr} {v : World} {f : Frame} {rest : List Frame} {t : Addr} (hta : t ≠ k.a)
    (hw : k.Seen c T v (f :: rest)) {sender : Addr} {target : Str} {em : ExecMsg} {funds : List Coin} {id : Option Nat}
    {admin : Option Addr} {s s' : TokenState} {r : Response} (hf : f = .msg sender ⟨.exec target em funds, id⟩)
    (hres : c.api.resolve target = .ok t) (hc : v.contracts t = some ⟨admin, .token s⟩)
    (hex : Token.execute c.api v.block s sender em = .ok (s', r)) :
    k.assetNet ⟨v.block, sender, em⟩ = wsum (k.underWay c t) (frames t r) - k.underWay c t f := by
  subst hf
  have hal := hw.no_allowance hc
  have hpf : sender = k.a → Pair.OutMsg (.exec target em funds) := by
    rintro rfl
    cases hw.sane.pairFrames _ _ _ hw.good.pair _ List.mem_cons_self rfl with
    | out _ ho => exact ho
  have note : ∀ {dst : Str} {x : Nat} {hk : HookMsg}, c.api.validate dst = .ok dst →
      wsum (k.underWay c t) (frames t { messages := [plain (.exec dst (.receive sender x hk) [])] }) =
        match hk with | .swap _ _ _ => if dst = k.a then (x : Int) else 0 | _ => 0 := by
    intro dst x hk hv
    have := resolve_of_validate hv
    cases hk <;> simp [wsum, frames, plain, underWay, this]
  cases Token.execute_inv hex with
  | transfer dst x h0 hv hb hf =>
    by_cases h1 : sender = k.a <;> simp [assetNet, Entry.credits, Entry.debits, Entry.gift, wsum, frames, underWay, h1, hres]
  | burn x h0 hb hs =>
    by_cases h1 : sender = k.a <;> simp [assetNet, Entry.credits, Entry.debits, Entry.gift, wsum, frames, underWay, h1, hres]
  | mint dst x md h0 hv hm hs hf hcap hb =>
    simp [assetNet, Entry.credits, Entry.debits, Entry.gift, wsum, frames, underWay]
  | increase | decrease | decreaseZero | renounce | newMinter =>
    simp [assetNet, Entry.credits, Entry.debits, Entry.gift, wsum, frames, underWay]
  | send dst x hk h0 hv hb hf =>
    have h1 : sender ≠ k.a := fun h => absurd (hpf h) (by simp [Pair.OutMsg])
    rw [note hv]
    cases hk <;> simp [assetNet, Entry.credits, Entry.debits, Entry.gift, underWay, h1]
  | transferFrom o dst x al hv ho ha he hle hb hf =>
    have h2 : o ≠ k.a := by rintro rfl; rw [hal] at ha; cases ha
    by_cases h1 : sender = k.a
    · simp [assetNet, Entry.credits, Entry.debits, Entry.gift, wsum, frames, underWay, h1, h2, hres]
      split <;> simp
    · simp [assetNet, Entry.credits, Entry.debits, Entry.gift, wsum, frames, underWay, h1, h2]
  | burnFrom o x al ho ha he hle hb hs =>
    have h2 : o ≠ k.a := by rintro rfl; rw [hal] at ha; cases ha
    simp [assetNet, Entry.credits, Entry.debits, Entry.gift, wsum, frames, underWay, h2]
  | sendFrom o dst x hk al hv ho ha he hle hb hf =>
    have h2 : o ≠ k.a := by rintro rfl; rw [hal] at ha; cases ha
    rw [note hv]
    cases hk <;> simp [assetNet, Entry.credits, Entry.debits, Entry.gift, underWay, h2]

/-- The pools of a called pair. -/
theorem Ctx.pool_infos {q : Querier} (hx : k.Ctx c) {p0 p1 : Asset} (hq : k.s.queryPools q c.api k.a = .ok (p0, p1)) :
    p0.info = k.i0 ∧ p1.info = k.i1 := by
  obtain ⟨h1, h2, _, _⟩ := queryPools_eq_ok.mp hq
  simp only at h1 h2
  rw [hx.info0] at h1
  rw [hx.info1] at h2
  exact ⟨(Except.ok.inj h1).symm, (Except.ok.inj h2).symm⟩

/-- A payment of the pair, under way. -/
theorem underWay_pay {t : Addr} {i : AssetInfo} (hx : k.Ctx c) (hi : i = k.i0 ∨ i = k.i1) (x : Nat) (d : Addr) :
    k.underWay c t (.msg k.a (plain (({ info := i, amount := x } : Asset).intoMsg d))) = if i = .token t then (x : Int) else 0 := by
  cases i with
  | native dn => simp [Asset.intoMsg, plain, underWay]
  | token u => simp [Asset.intoMsg, plain, underWay, hx.resolve_of hi rfl]

/-- A collection, under way. -/
theorem underWay_collect {t : Addr} {i : AssetInfo} (hx : k.Ctx c) (hi : i = k.i0 ∨ i = k.i1) (x : Nat) (d : Addr) :
    wsum (k.underWay c t) ((Pair.collectMsg k.a d i x).map (fun m => .msg k.a (plain m))) = if i = .token t then -(x : Int) else 0 := by
  cases i with
  | native dn => simp [Pair.collectMsg, wsum]
  | token u => simp [Pair.collectMsg, wsum, plain, underWay, hx.resolve_of hi rfl]

theorem asset_pair {q : Querier} {f : Frame} {t : Addr} (hx : k.Ctx c)
    (ht : .token t = k.i0 ∨ .token t = k.i1) {sender : Addr} {target : Str} {em : ExecMsg} {funds : List Coin}
    {id : Option Nat} {r : Response} (hf : f = .msg sender ⟨.exec target em funds, id⟩)
    (hres : c.api.resolve target = .ok k.a)
    (hex : Pair.execute c.api q k.a k.s sender funds em = .ok (k.s, r)) :
    0 = wsum (k.underWay c t) (frames k.a r) - k.underWay c t f + vsum (assetVal (.token t)) r.events := by
  subst hf
  have htl : k.lt ≠ t := by
    rintro rfl
    rcases ht with h | h
    · exact hx.lp0 h.symm
    · exact hx.lp1 h.symm
  rcases Pair.execute_inv hex with ⟨_, x, bp, ms, to_, rfl, hex⟩ | ⟨_, x, rfl, hex⟩ | ⟨as, tol, rc, rfl, hex⟩
  · obtain ⟨_, _, o, a, od, ad, ret, sp, cm, hs⟩ := Pair.receive_swap_inv (funds := funds) hex
    have hai : a.info = k.i0 ∨ a.info = k.i1 := by
      rcases hs.h_pools with ⟨hq, _⟩ | ⟨hq, _⟩
      · exact .inr (hx.pool_infos hq).2
      · exact .inl (hx.pool_infos hq).1
    have h1 : wsum (k.underWay c t) (frames k.a r) = if a.info = .token t then (ret : Int) else 0 := by
      rw [hs.h_resp]
      by_cases h0 : ret = 0
      · simp [h0, frames, wsum]
      · simp only [ne_eq, h0, not_false_eq_true, ↓reduceIte, frames, List.map_cons, List.map_nil, wsum, List.sum_cons, List.sum_nil,
          add_zero]
        exact underWay_pay hx hai _ _
    rw [h1, hs.h_resp]
    simp only [underWay, hres, and_true, vsum, List.map_cons, List.map_nil, List.sum_cons, List.sum_nil, assetVal, gave, took,
      AssetInfo.token.injEq]
    split <;> split <;> simp
  · obtain ⟨_, _, _, p0, p1, lt, ti, ratio, r0, r1, hs⟩ := Pair.receive_withdraw_inv (funds := funds) hex
    obtain ⟨e0, e1⟩ := hx.pool_infos hs.h_pools
    have hlt := hs.h_lt
    rw [hx.lp] at hlt
    cases hlt
    rw [hs.h_resp]
    simp only [frames, List.map_cons, List.map_nil, wsum, List.sum_cons, List.sum_nil, underWay_pay hx (.inl e0),
      underWay_pay hx (.inr e1), vsum, assetVal, gave, took]
    simp only [underWay, plain, hx.resolveLp, Except.ok.injEq, htl, and_false, ↓reduceIte]
    split <;> split <;> simp
  · obtain ⟨_, p0, p1, d0, d1, lt, ti, share, hs⟩ := Pair.provide_inv hex
    obtain ⟨e0, e1⟩ := hx.pool_infos hs.h_pools
    have hfr : wsum (k.underWay c t) (frames k.a r) = (if p0.info = .token t then -(d0 : Int) else 0) + (if p1.info = .token t then -(d1 : Int) else 0) := by
      rw [hs.h_resp, ← underWay_collect hx (.inl e0) d0 sender, ← underWay_collect hx (.inr e1) d1 sender]
      simp [frames, wsum, underWay, plain, Function.comp_def]
    rw [hfr, hs.h_resp]
    have h0 := hs.h_d0
    have h1 := hs.h_d1
    rw [Pair.depositFor_eq_ok] at h0 h1
    have hne := hx.ne
    rw [← e0, ← e1] at hne
    simp only [underWay, vsum, List.map_cons, List.map_nil, List.sum_cons, List.sum_nil, assetVal, gave, took]
    rcases h0 with ⟨i0, rfl⟩ | ⟨i0, j0, rfl⟩ <;> rcases h1 with ⟨i1, rfl⟩ | ⟨i1, j1, rfl⟩
    · exact absurd (i0.symm.trans i1) hne
    · rw [i0, j1]
      split <;> split <;> push_cast <;> omega
    · rw [i1, j0]
      split <;> split <;> push_cast <;> omega
    · exact absurd (j0.symm.trans j1) hne

/-! ## The LP token -/

/-- What is under way of LP tokens to be created and destroyed. -/
def lpUnderWay (k : PairSite) (c : Chain) : Frame → Int
  | .msg u ⟨.exec a (.burn x) _, _⟩ => if u = k.a ∧ c.api.resolve a = .ok k.lt then x else 0
  | .msg u ⟨.exec a (.mint _ x) _, _⟩ => if u = k.a ∧ c.api.resolve a = .ok k.lt then -x else 0
  | _ => 0

/-- What a call adds to the supply, apart from what others destroy. -/
def lpNet (k : PairSite) (e : Entry) : Int := e.mints - e.burns + e.forgone k.a

/-- What an announcement adds to it. -/
def lpVal (E : Event) : Int := created E - destroyed E

theorem lpUnderWay_weigh : k.Weigh c k.lt (k.lpUnderWay c) where
  reply := fun _ _ _ => rfl
  far := by
    rintro u ⟨m, id⟩ h1 h2
    cases m with
    | exec a em fu => cases em <;> simp only [lpUnderWay, h1, false_and, ↓reduceIte]
    | _ => rfl
  miss := by
    intro u a em fu id me h1 h2 h3
    cases em <;> simp only [lpUnderWay, h1, Except.ok.injEq, h2, and_false, ↓reduceIte]
  idle := by
    intro u m id h
    cases m with
    | exec a em fu => exact absurd rfl (h a em fu)
    | _ => rfl

theorem Seen.lp_token {T : Addr} {v : World} {f : Frame} {rest : List Frame}
    (hw : k.Seen c T v (f :: rest)) {sender : Addr} {target : Str} {em : ExecMsg} {funds : List Coin} {id : Option Nat}
    {admin : Option Addr} {s s' : TokenState} {r : Response} (hf : f = .msg sender ⟨.exec target em funds, id⟩)
    (hres : c.api.resolve target = .ok k.lt) (hc : v.contracts k.lt = some ⟨admin, .token s⟩)
    (hex : Token.execute c.api v.block s sender em = .ok (s', r)) :
    k.lpNet ⟨v.block, sender, em⟩ = wsum (k.lpUnderWay c) (frames k.lt r) - k.lpUnderWay c f := by
  subst hf
  have hpf : sender = k.a → Pair.OutMsg (.exec target em funds) := by
    rintro rfl
    cases hw.sane.pairFrames _ _ _ hw.good.pair _ List.mem_cons_self rfl with
    | out _ ho => exact ho
  cases Token.execute_inv hex with
  | transfer dst x h0 hv hb hf =>
    simp [lpNet, Entry.mints, Entry.burns, Entry.forgone, wsum, frames, lpUnderWay]
  | burn x h0 hb hs =>
    by_cases h1 : sender = k.a <;> simp [lpNet, Entry.mints, Entry.burns, Entry.forgone, wsum, frames, lpUnderWay, h1, hres]
  | mint dst x md h0 hv hm hs hf hcap hb =>
    obtain ⟨st, hst, hmint⟩ := hw.good.lp
    rw [hc] at hst
    cases hst
    rw [hm] at hmint
    cases hmint
    subst hs
    simp [lpNet, Entry.mints, Entry.burns, Entry.forgone, wsum, frames, lpUnderWay, hres]
  | increase | decrease | decreaseZero | renounce | newMinter | transferFrom | send | sendFrom =>
    simp [lpNet, Entry.mints, Entry.burns, Entry.forgone, wsum, frames, lpUnderWay, plain]
  | burnFrom o x al ho ha he hle hb hs =>
    have h1 : sender ≠ k.a := fun h => absurd (hpf h) (by simp [Pair.OutMsg])
    simp [lpNet, Entry.mints, Entry.burns, Entry.forgone, wsum, frames, lpUnderWay, h1]

theorem lpUnderWay_pay (i : AssetInfo) (x : Nat) (d : Addr) :
    k.lpUnderWay c (.msg k.a (plain (({ info := i, amount := x } : Asset).intoMsg d))) = 0 := by
  cases i <;> rfl

theorem lpUnderWay_collect (i : AssetInfo) (x : Nat) (d : Addr) :
    wsum (k.lpUnderWay c) ((Pair.collectMsg k.a d i x).map (fun m => .msg k.a (plain m))) = 0 := by
  cases i <;> rfl

theorem lp_pair {q : Querier} {f : Frame} (hx : k.Ctx c) {sender : Addr} {target : Str} {em : ExecMsg}
    {funds : List Coin} {id : Option Nat} {r : Response} (hf : f = .msg sender ⟨.exec target em funds, id⟩)
    (hex : Pair.execute c.api q k.a k.s sender funds em = .ok (k.s, r)) :
    0 = wsum (k.lpUnderWay c) (frames k.a r) - k.lpUnderWay c f + vsum lpVal r.events := by
  subst hf
  rcases Pair.execute_inv hex with ⟨_, x, bp, ms, to_, rfl, hex⟩ | ⟨_, x, rfl, hex⟩ | ⟨as, tol, rc, rfl, hex⟩
  · obtain ⟨_, _, o, a, od, ad, ret, sp, cm, hs⟩ := Pair.receive_swap_inv (funds := funds) hex
    rw [hs.h_resp]
    by_cases h0 : ret = 0
    · simp [h0, frames, wsum, lpUnderWay, vsum, lpVal, created, destroyed]
    · simp only [ne_eq, h0, not_false_eq_true, ↓reduceIte, frames, List.map_cons, List.map_nil, wsum, List.sum_cons, List.sum_nil,
        lpUnderWay_pay]
      simp [lpUnderWay, vsum, lpVal, created, destroyed]
  · obtain ⟨_, _, _, p0, p1, lt, ti, ratio, r0, r1, hs⟩ := Pair.receive_withdraw_inv (funds := funds) hex
    have hlt := hs.h_lt
    rw [hx.lp] at hlt
    cases hlt
    rw [hs.h_resp]
    simp only [frames, List.map_cons, List.map_nil, wsum, List.sum_cons, List.sum_nil, lpUnderWay_pay, vsum, lpVal, created, destroyed]
    simp [lpUnderWay, plain, hx.resolveLp]
  · obtain ⟨_, p0, p1, d0, d1, lt, ti, share, hs⟩ := Pair.provide_inv hex
    have hlt := hs.h_lt
    rw [hx.lp] at hlt
    cases hlt
    have hfr : wsum (k.lpUnderWay c) (frames k.a r) = -(share : Int) := by
      have h0 := lpUnderWay_collect (k := k) (c := c) p0.info d0 sender
      have h1 := lpUnderWay_collect (k := k) (c := c) p1.info d1 sender
      simp only [wsum, List.map_map, Function.comp_def] at h0 h1
      rw [hs.h_resp]
      simp only [frames, wsum, List.map_map, List.map_append, List.sum_append, Function.comp_def, h0, h1]
      simp [lpUnderWay, plain, hx.resolveLp]
    rw [hfr, hs.h_resp]
    simp [lpUnderWay, vsum, lpVal, created, destroyed]

/-! ## A native asset -/

/-- What is under way of the native coin `d`: payments of the pair. -/
def coinWay (k : PairSite) (d : Denom) : Frame → Int
  | .msg u ⟨.bankSend _ coins, _⟩ => if u = k.a then coinSum d coins else 0
  | _ => 0

theorem coinWay_far (d : Denom) {u : Addr} (hu : u ≠ k.a) (sm : SubMsg) : k.coinWay d (.msg u sm) = 0 := by
  obtain ⟨m, id⟩ := sm
  cases m <;> simp [coinWay, hu]

theorem coinWay_pay (d : Denom) (i : AssetInfo) (x : Nat) (r : Addr) :
    k.coinWay d (.msg k.a (plain (({ info := i, amount := x } : Asset).intoMsg r))) = if i = .native d then (x : Int) else 0 := by
  cases i with
  | native dn => simp [Asset.intoMsg, plain, coinWay, coinSum]
  | token u => simp [Asset.intoMsg, plain, coinWay]

theorem coinWay_collect (d : Denom) (i : AssetInfo) (x : Nat) (r : Addr) :
    wsum (k.coinWay d) ((Pair.collectMsg k.a r i x).map (fun m => .msg k.a (plain m))) = 0 := by
  cases i <;> rfl

/-- One step. -/
theorem Seen.coins {T : Addr} {adv : Adv} {n : Nat} {v v' : World} {f : Frame} {fs rest : List Frame} {d : Denom} (hdi : .native d = k.i0 ∨ .native d = k.i1)
    (hx : k.Ctx c) (hw : k.Seen c T v (f :: rest)) (h : StepI c adv n v f v' fs) :
    (v'.bal d k.a : Int) - v.bal d k.a = wsum (k.coinWay d) fs - k.coinWay d f +
      vsum (assetVal (.native d)) (saidBy k.a (said c adv n v f)) + coinGift c d k.a f := by
  obtain ⟨hg, hsane, hset⟩ := hw
  have notme : ∀ {me adm s}, v.contracts me = some ⟨adm, s⟩ → (∀ p, s ≠ .pair p) → me ≠ k.a := by
    rintro me adm s h1 h2 rfl
    rw [hg.pair] at h1
    cases h1
    exact h2 _ rfl
  have rep : ∀ u id cr, wsum (k.coinWay d) (replyFrame u id cr) = 0 := by
    intro u id cr
    refine wsum_zero fun g hg => ?_
    obtain ⟨i, _, rfl⟩ := mem_replyFrame hg
    rfl
  have msgs : ∀ {me : Addr} (ms : List SubMsg), me ≠ k.a → wsum (k.coinWay d) (ms.map (Frame.msg me)) = 0 := by
    intro me ms h1
    refine wsum_zero fun g hg => ?_
    obtain ⟨sm, _, rfl⟩ := List.mem_map.mp hg
    exact coinWay_far d h1 _
  have hpf : ∀ {sender m id}, f = .msg sender ⟨m, id⟩ → sender = k.a → Pair.OutMsg m := by
    rintro sender m id rfl rfl
    obtain ⟨m', hm⟩ := hset _ List.mem_cons_self rfl
    cases hm
    cases hsane.pairFrames _ _ _ hg.pair _ List.mem_cons_self rfl with
    | out _ ho => exact ho
  have away : ∀ {sender me : Addr} {target : Str} {em : ExecMsg} {funds : List Coin} {id : Option Nat} {w1 : World},
      f = .msg sender ⟨.exec target em funds, id⟩ → moveCoins v sender me funds = .ok w1 → me ≠ k.a → w1.bal d k.a = v.bal d k.a := by
    intro sender me target em funds id w1 hf hmv hme
    have hm := moveCoins_inv hmv
    by_cases hs : sender = k.a
    · have ho := hpf hf hs
      have : funds = [] := by cases em <;> simp [Pair.OutMsg] at ho <;> exact ho
      subst this
      rw [moveCoins_nil.mp hmv]
    · exact hm.others d k.a (Ne.symm hs) (Ne.symm hme)
  have nogift : ∀ {me : Addr} {sender : Addr} {target : Str} {em : ExecMsg} {funds : List Coin} {id : Option Nat},
      c.api.resolve target = .ok me → me ≠ k.a → coinGift c d k.a (.msg sender ⟨.exec target em funds, id⟩) = 0 := by
    intro me sender target em funds id h1 h2
    cases em <;> simp [coinGift, h1, h2]
  have quiet : v'.bal d k.a = v.bal d k.a → saidBy k.a (said c adv n v f) = [] → k.coinWay d f = 0 → coinGift c d k.a f = 0 →
      wsum (k.coinWay d) fs = 0 → (v'.bal d k.a : Int) - v.bal d k.a = wsum (k.coinWay d) fs - k.coinWay d f +
      vsum (assetVal (.native d)) (saidBy k.a (said c adv n v f)) + coinGift c d k.a f := by
    intro h1 h2 h3 h4 h5
    rw [h1, h2, h3, h4, h5]
    simp [vsum]
  cases h with
  | bank sender to_ coins id dst w' hne hdst hmv =>
    have hm := moveCoins_inv hmv
    have hsaid : saidBy k.a (said c adv n v (.msg sender ⟨.bankSend to_ coins, id⟩)) = [] := rfl
    rw [rep, hsaid]
    simp only [coinWay, coinGift, hdst, Except.ok.injEq, vsum, List.map_nil, List.sum_nil]
    by_cases hs : sender = k.a
    · by_cases hd : dst = k.a
      · have := hm.same (hs.trans hd.symm) d k.a
        simp only [hs, hd, ↓reduceIte]
        omega
      · have := hm.src_bal (fun e => hd (e.symm.trans hs)) d
        rw [hs] at this
        simp only [hs, hd, ↓reduceIte]
        omega
    · by_cases hd : dst = k.a
      · have := hm.dst_bal (fun e => hs (e.trans hd)) d
        rw [hd] at this
        simp only [hs, hd, ↓reduceIte]
        omega
      · have := hm.others d k.a (Ne.symm hs) (Ne.symm hd)
        simp only [hs, hd, ↓reduceIte]
        omega
  | migrate | admin => exact quiet rfl rfl rfl rfl (rep _ _ _)
  | inst sender admin codeId em funds id kk adm2 w1 s1 fs2 hk hadm hnew hmv hxx =>
    have hm := moveCoins_inv hmv
    have h1 : c.addrOf v.next ≠ k.a := by intro e; rw [e, hg.pair] at hnew; cases hnew
    have h2 : sender ≠ k.a := fun e => absurd (hpf rfl e) (by simp [Pair.OutMsg])
    refine quiet (hm.others d k.a (Ne.symm h2) (Ne.symm h1)) rfl rfl rfl ?_
    rw [wsum_append, rep, add_zero]
    refine wsum_zero fun g hgm => ?_
    obtain ⟨sm, rfl⟩ := callInstantiate_frames hxx g hgm
    exact coinWay_far d h1 _
  | token sender target em funds id me w1 admin s1 s' r hme hmv hrr hc hxx
  | factory sender target em funds id me w1 admin s1 s' r hme hmv hrr hc hxx
  | router sender target em funds id me w1 admin s1 s' r hme hmv hrr hc hxx =>
    have h1 := notme hc (fun _ h => by cases h)
    refine quiet (by have := away rfl hmv h1; exact this) (saidBy_other hme h1) rfl (nogift hme h1) ?_
    rw [wsum_append, rep, add_zero]
    exact msgs _ h1
  | other sender target em funds id me w1 admin ms hme hmv hc =>
    have h1 := notme hc (fun _ h => by cases h)
    refine quiet (by have := away rfl hmv h1; exact this) (saidBy_other hme h1) rfl (nogift hme h1) ?_
    rw [wsum_append, rep, add_zero]
    exact msgs _ h1
  | replyPair me id cr admin s1 s' r hc hxx =>
    have h1 : me ≠ k.a := by
      rintro rfl
      obtain ⟨m, hm⟩ := hset _ List.mem_cons_self rfl
      cases hm
    exact quiet rfl (saidBy_ne h1 _) rfl rfl (msgs _ h1)
  | replyFactory me id cr admin s1 s' r hc hxx =>
    have h1 := notme hc (fun _ h => by cases h)
    exact quiet rfl (saidBy_ne h1 _) rfl rfl (msgs _ h1)
  | replyOther me id cr admin ms hc =>
    have h1 := notme hc (fun _ h => by cases h)
    exact quiet rfl (saidBy_ne h1 _) rfl rfl (msgs _ h1)
  | pair sender target em funds id me w1 admin s1 s' r hme hmv hrr hc hxx =>
    by_cases hd : me = k.a
    swap
    · refine quiet (by have := away rfl hmv hd; exact this) (saidBy_other hme hd) rfl (nogift hme hd) ?_
      rw [wsum_append, rep, add_zero]
      exact msgs _ hd
    subst hd
    have hc' := hg.pair
    rw [hc] at hc'
    cases hc'
    have hc1 : w1.contracts k.a = some ⟨_, .pair k.s⟩ := (congrFun (moveCoins_inv hmv).contracts _).trans hc
    have hsaid : saidBy k.a (said c adv n v (.msg sender ⟨.exec target em funds, id⟩)) = r.events := by
      simp only [said, hme, hmv, hc1, hxx, eventsOf]
      exact saidBy_self _ _
    have hs := (Pair.execute_out hxx).1
    subst hs
    have hsk : sender ≠ k.a := by
      intro e
      have ho := hpf rfl e
      rcases Pair.execute_inv hxx with ⟨_, x, bp, ms, to_, rfl, _⟩ | ⟨_, x, rfl, _⟩ | ⟨as, tol, rc, rfl, _⟩ <;>
        simp [Pair.OutMsg] at ho
    have hbal : ∀ adm, (w1.setState k.a adm (.pair k.s)).bal d k.a = v.bal d k.a + coinSum d funds := fun _ => (moveCoins_inv hmv).dst_bal hsk d
    rw [hsaid, hbal, wsum_append, rep, add_zero]
    have hf0 : k.coinWay d (.msg sender ⟨.exec target em funds, id⟩) = 0 := rfl
    rw [hf0]
    rcases Pair.execute_inv hxx with ⟨_, x, bp, ms, to_, rfl, hex⟩ | ⟨_, x, rfl, hex⟩ | ⟨as, tol, rc, rfl, hex⟩
    · obtain ⟨_, _, o, a, od, ad, ret, sp, cm, hs⟩ := Pair.receive_swap_inv (funds := funds) hex
      have h1 : wsum (k.coinWay d) (frames k.a r) = if a.info = .native d then (ret : Int) else 0 := by
        rw [hs.h_resp]
        by_cases h0 : ret = 0
        · simp [h0, frames, wsum]
        · simp only [ne_eq, h0, not_false_eq_true, ↓reduceIte, frames, List.map_cons, List.map_nil, wsum, List.sum_cons,
            List.sum_nil, add_zero]
          exact coinWay_pay d _ _ _
      rw [h1, hs.h_resp]
      simp only [coinGift, hme, ↓reduceIte, vsum, List.map_cons, List.map_nil, List.sum_cons, List.sum_nil, assetVal, gave, took,
        reduceCtorEq]
      split <;> push_cast <;> omega
    · obtain ⟨_, _, _, p0, p1, lt, ti, ratio, r0, r1, hs⟩ := Pair.receive_withdraw_inv (funds := funds) hex
      rw [hs.h_resp]
      simp only [frames, List.map_cons, List.map_nil, wsum, List.sum_cons, List.sum_nil, coinWay_pay, vsum, assetVal, gave, took]
      simp only [coinWay, plain, coinGift, hme, ↓reduceIte]
      split <;> split <;> push_cast <;> omega
    · obtain ⟨_, p0, p1, d0, d1, lt, ti, share, hs⟩ := Pair.provide_inv hex
      obtain ⟨e0, e1⟩ := hx.pool_infos hs.h_pools
      have hnd : (funds.map Coin.denom).Nodup := by
        unfold moveCoins at hmv
        simp only [bind_eq_ok, require_eq_ok] at hmv
        obtain ⟨_, h1, _⟩ := hmv
        simpa using h1
      have hfr : wsum (k.coinWay d) (frames k.a r) = 0 := by
        have h0 := coinWay_collect (k := k) d p0.info d0 sender
        have h1 := coinWay_collect (k := k) d p1.info d1 sender
        simp only [wsum, List.map_map, Function.comp_def] at h0 h1
        rw [hs.h_resp]
        simp only [frames, wsum, List.map_map, List.map_append, List.sum_append, Function.comp_def, h0, h1]
        rfl
      have sent : ∀ {a : Asset}, a.assertSent funds = .ok () → a.info = .native d → coinSum d funds = a.amount :=
        fun h1 h2 => coinSum_of_sent hnd h2 h1
      rw [hfr, hs.h_resp]
      simp only [coinGift, vsum, List.map_cons, List.map_nil, List.sum_cons, List.sum_nil, assetVal, gave, took]
      have h0 := hs.h_d0
      have h1 := hs.h_d1
      rw [Pair.depositFor_eq_ok] at h0 h1
      have hne := hx.ne
      rw [← e0, ← e1] at hne hdi
      have q0 := sent hs.h_sent0
      have q1 := sent hs.h_sent1
      have two : (as.1.info = .native d ∧ as.2.info ≠ .native d) ∨ (as.1.info ≠ .native d ∧ as.2.info = .native d) := by
        rcases h0 with ⟨i0, _⟩ | ⟨i0, j0, _⟩ <;> rcases h1 with ⟨i1, _⟩ | ⟨i1, j1, _⟩
        · exact absurd (i0.symm.trans i1) hne
        · rw [i0, j1]
          rcases hdi with h | h
          · exact .inl ⟨h.symm, fun e => hne (h.symm.trans e.symm)⟩
          · exact .inr ⟨fun e => hne (e.trans h), h.symm⟩
        · rw [i1, j0]
          rcases hdi with h | h
          · exact .inr ⟨fun e => hne (h.symm.trans e.symm), h.symm⟩
          · exact .inl ⟨h.symm, fun e => hne (e.trans h)⟩
        · exact absurd (j0.symm.trans j1) hne
      rcases two with ⟨t1, t2⟩ | ⟨t1, t2⟩
      · have := q0 t1
        rw [if_pos t1, if_neg t2]
        push_cast
        omega
      · have := q1 t2
        rw [if_neg t1, if_pos t2]
        push_cast
        omega

/-- Over a run. -/
theorem Seen.run_coins {T : Addr} {adv : Adv} {d : Denom} (hdi : .native d = k.i0 ∨ .native d = k.i1) (hx : k.Ctx c) :
    ∀ {n n' : Nat} {v v' : World} {fs : List Frame}, k.Seen c T v fs → Halo.run c adv n v fs = .ok (n', v') →
    k.Gone T v' ∨ (v'.bal d k.a : Int) + wsum (k.coinWay d) fs = v.bal d k.a +
      vsum (assetVal (.native d)) (saidBy k.a (log c adv n v fs)) +
      ((trace c adv n v fs).map fun e => coinGift c d k.a e.2).sum := by
  intro n
  induction n with
  | zero =>
    intro n' v v' fs hw hr
    cases fs with
    | nil => cases hr; exact .inr (by simp [wsum, vsum, log, trace, saidBy])
    | cons => cases hr
  | succ n ih =>
    intro n' v v' fs hw hr
    cases fs with
    | nil => cases hr; exact .inr (by simp [wsum, vsum, log, trace, saidBy])
    | cons f fs =>
      obtain ⟨m, w1, fs1, he, hs, hr⟩ := run_cons_inv hr
      cases he
      have h0 := hw.coins hdi hx (step_inv hs)
      rcases hw.step (step_inv hs) with hb | hw1
      · exact .inl (hb.run hr)
      rcases ih hw1 hr with hb | h1
      · exact .inl hb
      refine .inr ?_
      rw [trace_cons hs, log_cons hs, saidBy_append]
      rw [wsum_append] at h1
      have e2 : wsum (k.coinWay d) (f :: fs) = k.coinWay d f + wsum (k.coinWay d) fs := by simp [wsum]
      have e3 : ∀ l l', vsum (assetVal (.native d)) (l ++ l') = vsum (assetVal (.native d)) l + vsum (assetVal (.native d)) l' := by
        intros; simp [vsum]
      rw [e2, e3, List.map_cons, List.sum_cons]
      push_cast at h1 ⊢
      omega

end PairSite
end Halo
