import Verif.Lemmas.LogL
import Verif.Lemmas.RegistryL
/-! # Announcements are followed by what they announce (helper lemmas for C73) -/

namespace Halo
open _root_.Halo.Spec

namespace PairSite
variable {c : Chain} {k : PairSite}

/-- The balances in `v'` are those in `v` after what the announcement of the pair says has happened. `v` is the state in which
the pair was called; the tokens given to it in a swap or withdrawal had arrived already. -/
def Settles (k : PairSite) (c : Chain) : Event → World → World → Prop
  | .swap _ rcv _ ask _ r _ _, v, v' => (r = 0 ∧ v' = v) ∨ ∃ d, c.api.resolve rcv = .ok d ∧ Xfer ask k.a d r v v'
  | .withdrawLiquidity snd x rf, v, v' => ∃ d v1 v2, c.api.resolve snd = .ok d ∧ Xfer rf.1.info k.a d rf.1.amount v v1 ∧
      Xfer rf.2.info k.a d rf.2.amount v1 v2 ∧ Burnt k.lt k.a x v2 v'
  | .provideLiquidity snd rcv as sh, v, v' => snd ≠ k.a ∧ ∃ v1, Minted k.lt rcv sh v1 v' ∧
      ∀ a, a = as.1 ∨ a = as.2 → held v1 a.info k.a = held v a.info k.a + a.amount ∧
        held v1 a.info snd + a.amount = held v a.info snd ∧
        ∀ b, b ≠ k.a → b ≠ snd → held v1 a.info b = held v a.info b
  | _, _, _ => False

/-- What the pair announces is carried out by the messages it sends with the announcement. -/
theorem Watched.settles {adv : Adv} {n : Nat} {v v1 : World} {f : Frame} {fs rest : List Frame} (hx : k.Ctx c)
    (hw : k.Watched c v (f :: rest)) (h : StepI c adv n v f v1 fs) {E : Event}
    (hE : E ∈ saidBy k.a (said c adv n v f)) :
    ∃ pay rf, fs = pay ++ rf ∧ (∀ g ∈ rf, ∃ id cr, g = .reply f.actor id cr) ∧
      ∀ m m' v', Halo.run c adv m v1 pay = .ok (m', v') → k.Settles c E v v' := by
  obtain ⟨hg, hsane, hset, hcalm⟩ := hw
  have notme : ∀ {me adm s}, v.contracts me = some ⟨adm, s⟩ → (∀ p, s ≠ .pair p) → me ≠ k.a := by
    rintro me adm s h1 h2 rfl
    rw [hg.pair] at h1
    cases h1
    exact h2 _ rfl
  have quiet : saidBy k.a (said c adv n v f) = [] → ∀ P : Prop, P := by
    intro h1 P
    rw [h1] at hE
    cases hE
  cases h with
  | bank | migrate | admin | inst => exact quiet rfl _
  | token sender target em funds id me w1 admin s1 s' r hme hmv hrr hc hxx
  | factory sender target em funds id me w1 admin s1 s' r hme hmv hrr hc hxx
  | router sender target em funds id me w1 admin s1 s' r hme hmv hrr hc hxx =>
    exact quiet (saidBy_other hme (notme hc (fun _ h => by cases h))) _
  | other sender target em funds id me w1 admin ms hme hmv hc =>
    exact quiet (saidBy_other hme (notme hc (fun _ h => by cases h))) _
  | replyPair me id cr admin s1 s' r hc hxx =>
    have hne : me ≠ k.a := by
      rintro rfl
      obtain ⟨m, hm⟩ := hset _ List.mem_cons_self rfl
      cases hm
    exact quiet (saidBy_ne hne _) _
  | replyFactory me id cr admin s1 s' r hc hxx => exact quiet (saidBy_ne (notme hc (fun _ h => by cases h)) _) _
  | replyOther me id cr admin ms hc => exact quiet (saidBy_ne (notme hc (fun _ h => by cases h)) _) _
  | pair sender target em funds id me w1 admin s1 s' r hme hmv hrr hc hxx =>
    by_cases hd : me = k.a
    swap
    · exact quiet (saidBy_other hme hd) _
    subst hd
    have hm := moveCoins_inv hmv
    have hc' := hg.pair
    rw [hc] at hc'
    cases hc'
    have hg1 : k.Good w1 := hg.tokOnly (fun b => .inl (congrFun hm.contracts b))
    have hc1 : w1.contracts k.a = some ⟨_, .pair k.s⟩ := (congrFun hm.contracts _).trans hc
    have hsaid : saidBy k.a (said c adv n v (.msg sender ⟨.exec target em funds, id⟩)) = r.events := by
      simp only [said, hme, hmv, hc1, hxx, eventsOf]
      exact saidBy_self _ _
    rw [hsaid] at hE
    refine ⟨frames k.a r, replyFrame sender id none, rfl, fun g hgr => ?_, fun m m' v' hr => ?_⟩
    · obtain ⟨i, _, rfl⟩ := mem_replyFrame hgr
      exact ⟨_, _, rfl⟩
    rcases Pair.execute_inv hxx with ⟨_, x, bp, ms, to_, rfl, hex⟩ | ⟨_, x, rfl, hex⟩ | ⟨as, tol, rc, rfl, hex⟩
    · obtain ⟨rfl, _, o, a, od, ad, ret, sp, cm, hs⟩ := Pair.receive_swap_inv (funds := funds) hex
      rw [setState_self_eq hc1] at hr
      have hio : o.info = .token sender := hs.h_info.symm
      have key : (a.info = k.i0 ∨ a.info = k.i1) ∧ (.token sender = k.i0 ∨ .token sender = k.i1) := by
        rcases hs.h_pools with ⟨hq, _⟩ | ⟨hq, _⟩
        · obtain ⟨e0, e1, _⟩ := hg1.pools hx hq
          exact ⟨.inr e1, .inl (hio.symm.trans e0)⟩
        · obtain ⟨e0, e1, _⟩ := hg1.pools hx hq
          exact ⟨.inl e0, .inr (hio.symm.trans e1)⟩
      obtain ⟨_, _, _, _, hm'⟩ := hcalm sender (.inr key.2) _ List.mem_cons_self rfl
      cases hm'
      have hw : w1 = v := moveCoins_nil.mp hmv
      subst hw
      rw [hs.h_resp] at hr hE
      simp only [List.mem_singleton] at hE
      subst hE
      by_cases h0 : ret = 0
      · simp only [h0, ne_eq, not_true_eq_false, ↓reduceIte, frames, List.map_nil, run_nil, Except.ok.injEq,
          Prod.mk.injEq] at hr
        exact .inl ⟨h0, hr.2.symm⟩
      · simp only [ne_eq, h0, not_false_eq_true, ↓reduceIte, frames, List.map_cons, List.map_nil] at hr
        obtain ⟨m3, v3, fs3, rfl, hs3, hr3⟩ := run_cons_inv hr
        obtain ⟨rfl, d, hd, hx3⟩ := xfer_pay_to (hg1.honest key.1) (fun t' ht' => hx.resolve_of key.1 ht') (step_inv hs3)
        simp only [List.append_nil, run_nil, Except.ok.injEq, Prod.mk.injEq] at hr3
        rw [← hr3.2]
        exact .inr ⟨d, hd, hx3⟩
    · obtain ⟨rfl, hcan, hvs, p0, p1, lt, ti, ratio, r0, r1, hs⟩ := Pair.receive_withdraw_inv (funds := funds) hex
      rw [setState_self_eq hc1] at hr
      have hsl : sender = k.lt := hsane.actor_eq hx.law List.mem_cons_self (f := .msg sender _) hcan hx.lp
      obtain ⟨_, _, _, _, hm'⟩ := hcalm sender (.inl hsl) _ List.mem_cons_self rfl
      cases hm'
      have hw : w1 = v := moveCoins_nil.mp hmv
      subst hw
      obtain ⟨e0, e1, a0, a1, _, _⟩ := hg1.pools hx hs.h_pools
      have hlt := hs.h_lt
      rw [hx.lp] at hlt
      cases hlt
      rw [hs.h_resp] at hr hE
      simp only [List.mem_singleton] at hE
      subst hE
      simp only [frames, List.map_cons, List.map_nil] at hr
      rw [e0, e1] at hr
      rw [e0, e1]
      have hS := resolve_of_validate hvs
      obtain ⟨m3, v3, fs3, rfl, hs3, hr3⟩ := run_cons_inv hr
      obtain ⟨rfl, hx3⟩ := xfer_pay hg1.asset0 (fun t' ht' => hx.resolve_of (.inl rfl) ht') hS (step_inv hs3)
      have hg3 := hg1.keep hx3.keep
      rw [List.nil_append] at hr3
      obtain ⟨m4, v4, fs4, rfl, hs4, hr4⟩ := run_cons_inv hr3
      obtain ⟨rfl, hx4⟩ := xfer_pay hg3.asset1 (fun t' ht' => hx.resolve_of (.inr rfl) ht') hS (step_inv hs4)
      have hg4 := hg3.keep hx4.keep
      rw [List.nil_append] at hr4
      obtain ⟨m5, v5, fs5, rfl, hs5, hr5⟩ := run_cons_inv hr4
      obtain ⟨st5, hst5, _⟩ := hg4.lp
      obtain ⟨st6, r6, he6, rfl, rfl⟩ := tok_exec hx.resolveLp hst5 (step_inv hs5)
      cases he6 with
      | burn _ hx0 hb5 hs5' =>
        simp only [frames, List.map_nil, List.append_nil, run_nil, Except.ok.injEq, Prod.mk.injEq] at hr5
        obtain ⟨_, rfl⟩ := hr5
        exact ⟨_, v3, v4, hS, hx3, hx4, burnt_of hst5 hx0 hb5 hs5'⟩
    · have hne : sender ≠ k.a := by
        intro he
        cases hsane.pairFrames k.a _ _ hc _ List.mem_cons_self he with
        | out _ ho => exact absurd ho (by simp [Pair.OutMsg])
      obtain ⟨rfl, p0, p1, d0, d1, lt, ti, share, hs⟩ := Pair.provide_inv hex
      rw [setState_self_eq hc1] at hr
      have hnd : (funds.map Coin.denom).Nodup := by
        unfold moveCoins at hmv
        simp only [bind_eq_ok, require_eq_ok] at hmv
        obtain ⟨_, h1, _⟩ := hmv
        simpa using h1
      have hlt := hs.h_lt
      rw [hx.lp] at hlt
      cases hlt
      obtain ⟨e0, e1, _⟩ := hg1.pools hx hs.h_pools
      have hd0 := hs.h_d0
      have hd1 := hs.h_d1
      rw [e0] at hd0
      rw [e1] at hd1
      have hev := hE
      rw [hs.h_resp] at hev
      simp only [List.mem_singleton] at hev
      subst hev
      have hfr : frames k.a r = (Pair.collectMsg k.a sender k.i0 d0).map (fun m => .msg k.a (plain m)) ++
          ((Pair.collectMsg k.a sender k.i1 d1).map (fun m => .msg k.a (plain m)) ++
            [.msg k.a (plain (.exec k.lt (.mint (rc.getD sender) share) []))]) := by
        rw [hs.h_resp, e0, e1]
        simp [frames, List.map_append, Function.comp_def]
      rw [hfr] at hr
      obtain ⟨m1, v1, hr1, hr2⟩ := run_append.mp hr
      obtain ⟨m2, v2, hr2, hr3⟩ := run_append.mp hr2
      have f1 := hg1.collect_exact hx (.inl rfl) hne hr1
      have g1 : k.Good v1 := by
        rcases f1 with ⟨_, rfl⟩ | ⟨_, f⟩
        exacts [hg1, hg1.keep f.keep]
      have f2 := g1.collect_exact hx (.inr rfl) hne hr2
      have g2 : k.Good v2 := by
        rcases f2 with ⟨_, rfl⟩ | ⟨_, f⟩
        exacts [g1, g1.keep f.keep]
      obtain ⟨m3, v3, fs3, rfl, hs3, hr3⟩ := run_cons_inv hr3
      obtain ⟨st2, hl2, _⟩ := g2.lp
      obtain ⟨st3, r3, he, rfl, rfl⟩ := tok_exec hx.resolveLp hl2 (step_inv hs3)
      cases he with
      | mint _ _ md hx0 hv hmd hsd hf hcap hb =>
        simp only [frames, List.map_nil, List.append_nil, run_nil, Except.ok.injEq, Prod.mk.injEq] at hr3
        obtain ⟨_, rfl⟩ := hr3
        refine ⟨hne, v2, minted_of hl2 hx0, ?_⟩
        -- the coins
        have native : ∀ i d, i.isNative = true → Pair.depositFor as i = .ok d →
            held w1 i k.a = held v i k.a + d ∧ held w1 i sender + d = held v i sender ∧
              ∀ b, b ≠ k.a → b ≠ sender → held w1 i b = held v i b := by
          intro i d hi hd
          cases i with
          | token t => cases hi
          | native dn =>
            have hcs : coinSum dn funds = d := by
              rcases Pair.depositFor_eq_ok.mp hd with ⟨h1, rfl⟩ | ⟨_, h1, rfl⟩
              · exact coinSum_of_sent hnd h1 hs.h_sent0
              · exact coinSum_of_sent hnd h1 hs.h_sent1
            refine ⟨?_, ?_, fun b hb1 hb2 => ?_⟩
            · simp only [held]; rw [hm.dst_bal hne, hcs]
            · simp only [held]; rw [← hcs]; exact hm.src_bal hne dn
            · simp only [held]; exact hm.others dn b hb2 hb1
        have tok : ∀ i b, i.isNative = false → held w1 i b = held v i b := by
          intro i b hi
          cases i with
          | native => cases hi
          | token t => exact held_congr (fun _ h => by cases h) (fun t _ => congrFun hm.contracts t)
        have s0 : held v2 k.i0 k.a = held v k.i0 k.a + d0 ∧ held v2 k.i0 sender + d0 = held v k.i0 sender ∧
            ∀ b, b ≠ k.a → b ≠ sender → held v2 k.i0 b = held v k.i0 b := by
          have e2 : ∀ b, held v2 k.i0 b = held v1 k.i0 b := by
            intro b
            rcases f2 with ⟨_, rfl⟩ | ⟨_, f⟩
            exacts [rfl, f.other _ hx.ne b]
          simp only [e2]
          rcases f1 with ⟨hn, rfl⟩ | ⟨hn, f⟩
          · exact native _ _ hn hd0
          · refine ⟨?_, ?_, fun b hb1 hb2 => ?_⟩
            · rw [f.dst_bal, tok _ _ hn]
            · rw [f.src_bal, tok _ _ hn]
            · rw [f.rest b hb2 hb1, tok _ _ hn]
        have s1 : held v2 k.i1 k.a = held v k.i1 k.a + d1 ∧ held v2 k.i1 sender + d1 = held v k.i1 sender ∧
            ∀ b, b ≠ k.a → b ≠ sender → held v2 k.i1 b = held v k.i1 b := by
          have e2 : ∀ b, held v1 k.i1 b = held w1 k.i1 b := by
            intro b
            rcases f1 with ⟨_, rfl⟩ | ⟨_, f⟩
            exacts [rfl, f.other _ hx.ne.symm b]
          rcases f2 with ⟨hn, rfl⟩ | ⟨hn, f⟩
          · simp only [e2]
            exact native _ _ hn hd1
          · refine ⟨?_, ?_, fun b hb1 hb2 => ?_⟩
            · rw [f.dst_bal, e2, tok _ _ hn]
            · rw [f.src_bal, e2, tok _ _ hn]
            · rw [f.rest b hb2 hb1, e2, tok _ _ hn]
        rcases Pair.depositFor_eq_ok.mp hd0 with ⟨i0, rfl⟩ | ⟨i0, j0, rfl⟩ <;>
          rcases Pair.depositFor_eq_ok.mp hd1 with ⟨i1, rfl⟩ | ⟨i1, j1, rfl⟩
        · exact absurd (i0.symm.trans i1) hx.ne
        · rintro a (rfl | rfl)
          · rw [i0]; exact s0
          · rw [j1]; exact s1
        · rintro a (rfl | rfl)
          · rw [i1]; exact s1
          · rw [j0]; exact s0
        · exact absurd (j0.symm.trans j1) hx.ne

end PairSite

/-! ## The factory's announcements -/

/-- A property of worlds and logs that every step keeps holds over histories. -/
theorem Logged.induct {c : Chain} {P : World → List (Addr × Event) → Prop}
    (hstep : ∀ adv n w f w' fs es, P w es → StepI c adv n w f w' fs → P w' (es ++ said c adv n w f))
    (hblock : ∀ w es b, P w es → P { w with block := b } es) (hbank : ∀ w es b, P w es → P { w with bank := b } es)
    {u v : World} {tr : List (World × Frame)} {es : List (Addr × Event)} (h : Logged c u tr es v) (h0 : P u []) : P v es := by
  have hrun : ∀ (adv : Adv) (n n' : Nat) (w w' : World) (fs : List Frame) (es : List (Addr × Event)), P w es →
      run c adv n w fs = .ok (n', w') → P w' (es ++ log c adv n w fs) := by
    intro adv n
    induction n with
    | zero =>
      intro n' w w' fs es hp hr
      cases fs with
      | nil => rw [run_nil] at hr; cases hr; rw [log_nil, List.append_nil]; exact hp
      | cons => cases hr
    | succ n ih =>
      intro n' w w' fs es hp hr
      cases fs with
      | nil => rw [run_nil] at hr; cases hr; rw [log_nil, List.append_nil]; exact hp
      | cons f fs =>
        obtain ⟨m, w1, fs1, he, hs, hr⟩ := run_cons_inv hr
        cases he
        have := ih _ _ _ _ _ (hstep _ _ _ _ _ _ _ hp (step_inv hs)) hr
        rw [log_cons hs, ← List.append_assoc]
        exact this
  induction h with
  | refl => exact h0
  | tx tr es adv gas v w signer m h hu hx ih =>
    obtain ⟨n, hr⟩ := runTx_inv hx
    exact hrun _ _ _ _ _ _ _ ih hr
  | block tr es v b h ih => exact hblock _ _ _ ih
  | env tr es v bank' h hb ih => exact hbank _ _ _ ih

theorem mem_saidBy {a : Addr} {E : Event} {es : List (Addr × Event)} : E ∈ saidBy a es ↔ (a, E) ∈ es := by
  simp only [saidBy, List.mem_filterMap]
  constructor
  · rintro ⟨⟨b, e⟩, h1, h2⟩
    split_ifs at h2 with h3
    cases h2
    cases h3
    exact h1
  · intro h
    exact ⟨_, h, by simp⟩

/-- What a factory announces when it runs. -/
theorem said_factory {c : Chain} {adv : Adv} {n : Nat} {w w' : World} {f : Frame} {fs : List Frame}
    (h : StepI c adv n w f w' fs) {a : Addr} {adm : Option Addr} {s : Factory.State}
    (ha : w.contracts a = some ⟨adm, .factory s⟩) :
    ∃ k adm', w'.contracts a = some ⟨adm', k⟩ ∧
      (k = .other ∨ k = .factory s ∨
        (∃ sender target m funds id q s' r, f = .msg sender ⟨.exec target m funds, id⟩ ∧ k = .factory s' ∧
          Factory.Eff c.api q a s sender m s' r ∧ saidBy a (said c adv n w f) = r.events) ∨
        (∃ id created s' r, f = .reply a id created ∧ k = .factory s' ∧
          Factory.reply c.api (querier c (adv.query n) w) s created = .ok (s', r) ∧
          saidBy a (said c adv n w f) = r.events)) := by
  obtain ⟨k, adm', h1, h2, _⟩ := facStep h ha
  refine ⟨k, adm', h1, ?_⟩
  cases h2 with
  | same => exact .inr (.inl rfl)
  | other => exact .inl rfl
  | exec sender target m funds id w1 s' r hf hres hm hb hr hx =>
    subst hf
    generalize hf : (⟨.exec target m funds, id⟩ : SubMsg) = sm at h
    cases h with
    | factory _ _ _ _ _ me w2 admin s1 s2 r2 hme hmv hrr hc hxx =>
      cases hf
      rw [hres] at hme
      cases hme
      rw [ha] at hc
      cases hc
      have h3 : (w2.setState a adm (.factory s2)).contracts a = some ⟨adm, .factory s2⟩ := setContract_self _ _ _
      rw [h1] at h3
      cases h3
      refine .inr (.inr (.inl ⟨sender, target, m, funds, id, _, s', r2, rfl, rfl, Factory.execute_inv hxx, ?_⟩))
      have hc1 : w2.contracts a = some ⟨adm, .factory s⟩ := (congrFun (moveCoins_inv hmv).contracts _).trans ha
      simp only [said, hres, hmv, hc1, hxx, eventsOf]
      exact saidBy_self _ _
    | pair _ _ _ _ _ me w1 admin s1 s' r hme hmv hrr hc hx | token _ _ _ _ _ me w1 admin s1 s' r hme hmv hrr hc hx
    | router _ _ _ _ _ me w1 admin s1 s' r hme hmv hrr hc hx | other _ _ _ _ _ me w1 admin ms hme hmv hc =>
      cases hf
      rw [hres] at hme
      cases hme
      rw [ha] at hc
      cases hc
    | bank | inst | migrate | admin => cases hf
  | reply id created s' r hf hx =>
    subst hf
    refine .inr (.inr (.inr ⟨id, created, s', r, rfl, rfl, hx, ?_⟩))
    simp only [said, ha, hx, eventsOf]
    exact saidBy_self _ _

/-- Whatever a factory's storage holds was there before or has been announced. -/
structure Announced (c : Chain) (a : Addr) (u : World) (es : List (Addr × Event)) (s : Factory.State) : Prop where
  pairs : ∀ key e, (key, e) ∈ s.pairs → (∃ adm s0, u.contracts a = some ⟨adm, .factory s0⟩ ∧ (key, e) ∈ s0.pairs) ∨
    ∃ p l, (a, .pairCreated p l) ∈ es ∧ c.api.canon p = some e.contractAddr ∧ c.api.canon l = some e.liquidityToken
  natives : ∀ d x, s.allow.get d = some x → (∃ adm s0, u.contracts a = some ⟨adm, .factory s0⟩ ∧ s0.allow.get d = some x) ∨
    (a, .addNativeToken d x) ∈ es
  config : ∀ adm s0, u.contracts a = some ⟨adm, .factory s0⟩ → s.config = s0.config ∨ (a, .updateConfig) ∈ es

theorem Announced.mono {c : Chain} {a : Addr} {u : World} {es es' : List (Addr × Event)} {s : Factory.State}
    (h : Announced c a u es s) : Announced c a u (es ++ es') s :=
  ⟨fun key e he => (h.pairs key e he).imp id (fun ⟨p, l, h1, h2⟩ => ⟨p, l, List.mem_append_left _ h1, h2⟩),
    fun d x hd => (h.natives d x hd).imp id (List.mem_append_left _),
    fun adm s0 h0 => (h.config adm s0 h0).imp id (List.mem_append_left _)⟩

theorem announced {c : Chain} {u v : World} {tr : List (World × Frame)} {es : List (Addr × Event)}
    (h : Logged c u tr es v) (a : Addr) :
    ((u.contracts a).isSome → (v.contracts a).isSome) ∧
    ∀ adm s, v.contracts a = some ⟨adm, .factory s⟩ → Announced c a u es s := by
  refine h.induct (P := fun v es => ((u.contracts a).isSome → (v.contracts a).isSome) ∧
    ∀ adm s, v.contracts a = some ⟨adm, .factory s⟩ → Announced c a u es s) ?_ (fun _ _ _ h => h) (fun _ _ _ h => h)
    ⟨id, fun adm s hs => ⟨fun key e he => .inl ⟨adm, s, hs, he⟩, fun d x hd => .inl ⟨adm, s, hs, hd⟩,
      fun adm0 s0 h0 => by rw [hs] at h0; cases h0; exact .inl rfl⟩⟩
  intro adv n w f w' fs es ⟨hp0, hp⟩ hs
  refine ⟨fun h0 => isSome_step hs (hp0 h0), fun adm' s' ha' => ?_⟩
  rcases fac_back hs ha' with ⟨s0, adm0, h0⟩ | ⟨hnone, _, hpairs, _, _, hallow⟩
  swap
  · refine ⟨fun key e he => ?_, fun d x hd => ?_, fun adm s0 h0 => ?_⟩
    · rw [hpairs] at he
      cases he
    · rw [hallow] at hd
      cases hd
    · have := hp0 (by rw [h0]; rfl)
      rw [hnone] at this
      cases this
  have hp1 := hp adm0 s0 h0
  obtain ⟨k, adm1, h1, h2⟩ := said_factory hs h0
  rw [ha'] at h1
  cases h1
  rcases h2 with h2 | h2 | ⟨sender, target, m, funds, id, q, s1, r, rfl, h2, h3, h4⟩ | ⟨id, created, s1, r, rfl, h2, h3, h4⟩
  · cases h2
  · cases h2
    exact hp1.mono
  · cases h2
    have mem : ∀ {E}, E ∈ r.events → (a, E) ∈ es ++ said c adv n w (.msg sender ⟨.exec target m funds, id⟩) :=
      fun hE => List.mem_append_right _ (mem_saidBy.mp (h4 ▸ hE))
    have hm := hp1.mono (es' := said c adv n w (.msg sender ⟨.exec target m funds, id⟩))
    cases h3 with
    | update o t p own hs hn hso => exact ⟨hm.pairs, hm.natives, fun _ _ _ => .inr (mem (by simp))⟩
    | create => exact ⟨hm.pairs, hm.natives, hm.config⟩
    | migrate => exact ⟨hm.pairs, hm.natives, hm.config⟩
    | addNative d dec b hs hb hpos =>
      refine ⟨hm.pairs, fun d' x hd' => ?_, hm.config⟩
      simp only [AMap.get_set] at hd'
      split_ifs at hd' with hdd
      · cases hd'
        subst hdd
        exact .inr (mem (by simp))
      · exact hm.natives _ _ hd'
  · cases h2
    obtain ⟨tmp, p, info, lt, ca, ht, rfl, hq, hlt, hca, rfl, rfl⟩ := Factory.reply_inv h3
    have hm := hp1.mono (es' := said c adv n w (.reply a id (some p)))
    refine ⟨fun key e he => ?_, hm.natives, hm.config⟩
    rcases mem_smapSet he with he | he
    · cases he
      exact .inr ⟨p, info.liquidityToken, List.mem_append_right _ (mem_saidBy.mp (by rw [h4]; simp)), hca, hlt⟩
    · exact hm.pairs _ _ he

end Halo
