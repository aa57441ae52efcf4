import Verif.Lemmas.Sane
/-! # halo-factory: what a successful call means (helper lemmas) -/

namespace Halo

namespace Factory

/-- Every way a factory message can succeed. -/
inductive Eff (api : Api) (q : Querier) (me : Addr) (s : State) (sender : Addr) :
    ExecMsg → State → Response → Prop where
  | update (o : Option Str) (t p : Option Nat) (own : Bytes) (hs : api.canon sender = some s.config.owner)
      (hnone : o = none → own = s.config.owner)
      (hsome : ∀ x, o = some x → api.validate x = .ok x ∧ api.canon x = some own) :
      Eff api q me s sender (.updateConfig o t p)
        { s with config := { owner := own, tokenCodeId := t.getD s.config.tokenCodeId,
                             pairCodeId := p.getD s.config.pairCodeId } } { events := [.updateConfig] }
  | create (as : AssetInfo × AssetInfo) (req : Requirements) (d0 d1 : Nat) (r0 r1 : AssetInfoRaw)
      (hne : as.1 ≠ as.2) (h0 : as.1.queryDecimals q me = .ok d0) (h1 : as.2.queryDecimals q me = .ok d1)
      (hr0 : as.1.toRaw api = .ok r0) (hr1 : as.2.toRaw api = .ok r1)
      (hnew : AMap.get s.pairs (pairKey (r0, r1)) = none) :
      Eff api q me s sender (.createPair as req)
        { s with tmp := some { pairKey := pairKey (r0, r1), assetInfos := (r0, r1), assetDecimals := (d0, d1) } }
        { messages := [⟨.inst (some me) s.config.pairCodeId
            (.pair as s.config.tokenCodeId (d0, d1) req) [], some 1⟩],
          events := [.createPair as] }
  | addNative (d : Str) (dec b : Nat) (hs : api.canon sender = some s.config.owner) (hb : q.balance me d = .ok b)
      (hpos : b ≠ 0) :
      Eff api q me s sender (.addNativeTokenDecimals d dec) { s with allow := s.allow.set d dec }
        { events := [.addNativeToken d dec] }
  | migrate (k : Str) (code : Option Nat) (hs : api.canon sender = some s.config.owner) :
      Eff api q me s sender (.migratePair k code) s
        { messages := [plain (.migrate k (code.getD s.config.pairCodeId))] }

theorem decimalsOr_eq_ok {r : R Nat} {e : Err} {d : Nat} : decimalsOr r e = .ok d ↔ r = .ok d := by
  unfold decimalsOr
  split <;> simp

theorem execute_inv {api : Api} {q : Querier} {me : Addr} {s s' : State} {sender : Addr} {m : ExecMsg} {r : Response}
    (h : execute api q me s sender m = .ok (s', r)) : Eff api q me s sender m s' r := by
  cases m with
  | updateConfig o t p =>
    cases o with
    | none =>
      simp only [execute, updateConfig, checkOwner, bind_eq_ok, canonicalize_eq_ok, require_eq_ok, pure_eq_ok,
        Prod.mk.injEq, Except.ok.injEq] at h
      obtain ⟨_, ⟨c, h1, h2⟩, own, rfl, rfl, rfl⟩ := h
      subst h2
      exact .update none t p _ h1 (fun _ => rfl) (fun x hx => by cases hx)
    | some o =>
      simp only [execute, updateConfig, checkOwner, bind_eq_ok, canonicalize_eq_ok, require_eq_ok, pure_eq_ok,
        Prod.mk.injEq] at h
      obtain ⟨_, ⟨c, h1, h2⟩, own, ⟨x, h3, h4⟩, rfl, rfl⟩ := h
      subst h2
      refine .update (some o) t p own h1 (fun h => by cases h) (fun y hy => ?_)
      cases hy
      exact ⟨(Token.validate_self h3).2, h4⟩
  | createPair as req =>
    simp only [execute, createPair, bind_eq_ok, require_eq_ok, pure_eq_ok, Prod.mk.injEq, decimalsOr_eq_ok] at h
    obtain ⟨_, h1, d0, h2, d1, h3, r0, h4, r1, h5, _, h6, rfl, rfl⟩ := h
    exact .create as req d0 d1 r0 r1 h1 h2 h3 h4 h5 h6
  | addNativeTokenDecimals d dec =>
    simp only [execute, addNativeTokenDecimals, checkOwner, bind_eq_ok, canonicalize_eq_ok, require_eq_ok, pure_eq_ok,
      Prod.mk.injEq] at h
    obtain ⟨_, ⟨c, h1, h2⟩, b, h3, _, h4, rfl, rfl⟩ := h
    subst h2
    exact .addNative d dec b h1 h3 h4
  | migratePair k code =>
    simp only [execute, migratePair, checkOwner, bind_eq_ok, canonicalize_eq_ok, require_eq_ok, pure_eq_ok,
      Prod.mk.injEq] at h
    obtain ⟨_, ⟨c, h1, h2⟩, rfl, rfl⟩ := h
    subst h2
    exact .migrate k code h1
  | _ => simp [execute] at h

/-- What a successful factory reply means. -/
theorem reply_inv {api : Api} {q : Querier} {s s' : State} {created : Option Addr} {r : Response}
    (h : reply api q s created = .ok (s', r)) :
    ∃ tmp p info lt ca, s.tmp = some tmp ∧ created = some p ∧ q.pairInfoFromPair p = .ok info ∧
      api.canon info.liquidityToken = some lt ∧ api.canon p = some ca ∧ r = { events := [.pairCreated p info.liquidityToken] } ∧
      s' = { s with pairs := (smapSet tmp.pairKey
        (PairInfoRaw.mk tmp.assetInfos ca lt tmp.assetDecimals info.requirements) s.pairs) } := by
  unfold reply at h
  simp only [bind_eq_ok, okOr_eq_ok, canonicalize_eq_ok, pure_eq_ok, Prod.mk.injEq] at h
  obtain ⟨tmp, h1, p, h2, info, h3, lt, h4, ca, h5, rfl, rfl⟩ := h
  exact ⟨tmp, p, info, lt, ca, h1, h2, h3, h4, h5, rfl, rfl⟩

end Factory

/-- A frame that gives the contract at `a` a new admin, sent by the old one. -/
def Readmin (c : Chain) (a : Addr) (adm : Option Addr) (f : Frame) : Prop :=
  ∃ sender target new id, f = .msg sender ⟨.updateAdmin target new, id⟩ ∧ c.api.resolve target = .ok a ∧ adm = some sender

theorem Readmin.none {c : Chain} {a : Addr} {f : Frame} : ¬ Readmin c a none f := by
  rintro ⟨_, _, _, _, _, _, h⟩
  cases h

/-- How a step changes a factory. -/
inductive FacStep (c : Chain) (adv : Adv) (n : Nat) (w w' : World) (a : Addr) (s : Factory.State) (f : Frame) :
    CState → Prop where
  | same : FacStep c adv n w w' a s f (.factory s)
  | other : FacStep c adv n w w' a s f .other
  | exec (sender : Addr) (target : Str) (m : ExecMsg) (funds : List Coin) (id : Option Nat) (w1 : World)
      (s' : Factory.State) (r : Response) (hf : f = .msg sender ⟨.exec target m funds, id⟩)
      (hme : c.api.resolve target = .ok a) (hm : Moved w w1 sender a funds) (hb : w'.bank = w1.bank) (hr : m.inRange = true)
      (hx : Factory.Eff c.api (querier c (adv.query n) w1) a s sender m s' r) :
      FacStep c adv n w w' a s f (.factory s')
  | reply (id : Nat) (created : Option Addr) (s' : Factory.State) (r : Response) (hf : f = .reply a id created)
      (hx : Factory.reply c.api (querier c (adv.query n) w) s created = .ok (s', r)) :
      FacStep c adv n w w' a s f (.factory s')

theorem facStep {c : Chain} {adv : Adv} {n : Nat} {w w' : World} {f : Frame} {fs : List Frame}
    (h : StepI c adv n w f w' fs) {a : Addr} {adm : Option Addr} {s : Factory.State}
    (ha : w.contracts a = some ⟨adm, .factory s⟩) :
    ∃ k adm', w'.contracts a = some ⟨adm', k⟩ ∧ FacStep c adv n w w' a s f k ∧ (adm' = adm ∨ Readmin c a adm f) := by
  have keep : w'.contracts a = w.contracts a →
      ∃ k adm', w'.contracts a = some ⟨adm', k⟩ ∧ FacStep c adv n w w' a s f k ∧ (adm' = adm ∨ Readmin c a adm f) :=
    fun e => ⟨_, _, by rw [e, ha], .same, .inl rfl⟩
  cases h with
  | bank _ _ _ _ _ _ _ _ hmv => exact keep (by rw [(moveCoins_inv hmv).contracts])
  | other _ _ _ _ _ _ _ _ _ _ hmv => exact keep (by rw [(moveCoins_inv hmv).contracts])
  | replyOther => exact keep rfl
  | token _ _ _ _ _ me w1 admin s1 s' r _ hmv _ hc _ | pair _ _ _ _ _ me w1 admin s1 s' r _ hmv _ hc _
  | router _ _ _ _ _ me w1 admin s1 s' r _ hmv _ hc _ =>
    have h1 : a ≠ me := by rintro rfl; rw [ha] at hc; cases hc
    exact keep ((setContract_ne _ _ h1).trans (congrFun (moveCoins_inv hmv).contracts a))
  | factory sender target m funds id me w1 admin s1 s' r hme hmv hr hc hx =>
    by_cases h1 : a = me
    · subst h1
      rw [ha] at hc
      cases hc
      exact ⟨_, _, setContract_self _ _ _, .exec sender target m funds id w1 s' r rfl hme (moveCoins_inv hmv) rfl hr
        (Factory.execute_inv hx), .inl rfl⟩
    · exact keep ((setContract_ne _ _ h1).trans (congrFun (moveCoins_inv hmv).contracts a))
  | inst sender admin codeId m funds id kk adm2 w1 s1 fs1 hk hadm hnew hmv hx =>
    have h1 : a ≠ c.addrOf w.next := by rintro rfl; rw [ha] at hnew; cases hnew
    exact keep ((setContract_ne _ _ h1).trans (congrFun (moveCoins_inv hmv).contracts a))
  | migrate sender _ _ _ k me s1 _ _ hc =>
    by_cases h1 : a = me
    · subst h1
      rw [ha] at hc
      cases hc
      refine ⟨_, _, setContract_self _ _ _, ?_, .inl rfl⟩
      cases k <;> first | exact .other | exact .same
    · exact keep (setContract_ne _ _ h1)
  | admin sender target new id adm2 me s1 hres hc _ =>
    by_cases h1 : a = me
    · subst h1
      rw [ha] at hc
      cases hc
      exact ⟨_, _, setContract_self _ _ _, .same, .inr ⟨sender, target, new, id, rfl, hres, rfl⟩⟩
    · exact keep (setContract_ne _ _ h1)
  | replyPair me _ _ admin s1 s' r hc hx =>
    have h1 : a ≠ me := by rintro rfl; rw [ha] at hc; cases hc
    exact keep (setContract_ne _ _ h1)
  | replyFactory me id created admin s1 s' r hc hx =>
    by_cases h1 : a = me
    · subst h1
      rw [ha] at hc
      cases hc
      exact ⟨_, _, setContract_self _ _ _, .reply id created s' r rfl hx, .inl rfl⟩
    · exact keep (setContract_ne _ _ h1)

/-- A contract's admin only changes when the admin says so. -/
theorem admin_step {c : Chain} {adv : Adv} {n : Nat} {w w' : World} {f : Frame} {fs : List Frame}
    (h : StepI c adv n w f w' fs) {a : Addr} {adm : Option Addr} {k : CState} (ha : w.contracts a = some ⟨adm, k⟩) :
    ∃ adm' k', w'.contracts a = some ⟨adm', k'⟩ ∧ (adm' = adm ∨ Readmin c a adm f) := by
  have keep : w'.contracts a = w.contracts a →
      ∃ adm' k', w'.contracts a = some ⟨adm', k'⟩ ∧ (adm' = adm ∨ Readmin c a adm f) :=
    fun e => ⟨_, _, by rw [e, ha], .inl rfl⟩
  cases h with
  | bank _ _ _ _ _ _ _ _ hmv => exact keep (by rw [(moveCoins_inv hmv).contracts])
  | other _ _ _ _ _ _ _ _ _ _ hmv => exact keep (by rw [(moveCoins_inv hmv).contracts])
  | replyOther => exact keep rfl
  | token _ _ _ _ _ me w1 admin s1 s' r _ hmv _ hc _ | pair _ _ _ _ _ me w1 admin s1 s' r _ hmv _ hc _
  | factory _ _ _ _ _ me w1 admin s1 s' r _ hmv _ hc _ | router _ _ _ _ _ me w1 admin s1 s' r _ hmv _ hc _ =>
    by_cases h1 : a = me
    · subst h1
      rw [ha] at hc
      cases hc
      exact ⟨_, _, setContract_self _ _ _, .inl rfl⟩
    · exact keep ((setContract_ne _ _ h1).trans (congrFun (moveCoins_inv hmv).contracts a))
  | inst sender admin codeId m funds id kk adm2 w1 s1 fs1 hk hadm hnew hmv hx =>
    have h1 : a ≠ c.addrOf w.next := by rintro rfl; rw [ha] at hnew; cases hnew
    exact keep ((setContract_ne _ _ h1).trans (congrFun (moveCoins_inv hmv).contracts a))
  | migrate sender _ _ _ k me s1 _ _ hc | replyPair me _ _ admin s1 s' r hc hx | replyFactory me _ _ admin s1 s' r hc hx =>
    by_cases h1 : a = me
    · subst h1
      rw [ha] at hc
      cases hc
      exact ⟨_, _, setContract_self _ _ _, .inl rfl⟩
    · exact keep (setContract_ne _ _ h1)
  | admin sender target new id adm2 me s1 hres hc _ =>
    by_cases h1 : a = me
    · subst h1
      rw [ha] at hc
      cases hc
      exact ⟨_, _, setContract_self _ _ _, .inr ⟨sender, target, new, id, rfl, hres, rfl⟩⟩
    · exact keep (setContract_ne _ _ h1)

/-- A contract that became foreign code stays foreign code. -/
theorem other_step {c : Chain} {adv : Adv} {n : Nat} {w w' : World} {f : Frame} {fs : List Frame}
    (h : StepI c adv n w f w' fs) {a : Addr} {adm : Option Addr} (ha : w.contracts a = some ⟨adm, .other⟩) :
    ∃ adm', w'.contracts a = some ⟨adm', .other⟩ ∧ (adm' = adm ∨ Readmin c a adm f) := by
  obtain ⟨adm1, _, _, h1⟩ :=
    (TokStep.of_step (ρ := fun _ _ => True) (fun _ => trivial) (fun _ _ _ _ _ _ _ _ => trivial) h) a adm _ ha
  obtain ⟨adm2, k, h2, h3⟩ := admin_step h ha
  have e := (h1 rfl).symm.trans h2
  cases e
  exact ⟨_, h1 rfl, h3⟩

/-- A pair stays a pair with the same storage, except for its reply and for migration to foreign code. -/
theorem pair_fwd {c : Chain} {adv : Adv} {n : Nat} {w w' : World} {f : Frame} {fs : List Frame}
    (h : StepI c adv n w f w' fs) {a : Addr} {adm : Option Addr} {s : Pair.State}
    (ha : w.contracts a = some ⟨adm, .pair s⟩) (hf : f.actor = a → ∃ m, f = .msg a m) :
    (∃ adm', w'.contracts a = some ⟨adm', .pair s⟩ ∧ (adm' = adm ∨ Readmin c a adm f)) ∨
      w'.contracts a = some ⟨adm, .other⟩ ∧
        ∃ sender target codeId id k, f = .msg sender ⟨.migrate target codeId, id⟩ ∧ c.api.resolve target = .ok a ∧
          adm = some sender ∧ c.codes codeId = some k ∧ k ≠ .pair := by
  have keep : w'.contracts a = some ⟨adm, .pair s⟩ →
      ∃ adm', w'.contracts a = some ⟨adm', .pair s⟩ ∧ (adm' = adm ∨ Readmin c a adm f) := fun e => ⟨_, e, .inl rfl⟩
  cases h with
  | bank _ _ _ _ _ _ _ _ hmv => exact .inl (keep (by rw [(moveCoins_inv hmv).contracts]; exact ha))
  | other _ _ _ _ _ _ _ _ _ _ hmv => exact .inl (keep (by rw [(moveCoins_inv hmv).contracts]; exact ha))
  | replyOther => exact .inl (keep ha)
  | token _ _ _ _ _ me w1 admin s1 s' r _ hmv _ hc _ | factory _ _ _ _ _ me w1 admin s1 s' r _ hmv _ hc _
  | router _ _ _ _ _ me w1 admin s1 s' r _ hmv _ hc _ =>
    have h1 : a ≠ me := by rintro rfl; rw [ha] at hc; cases hc
    exact .inl (keep (((setContract_ne _ _ h1).trans (congrFun (moveCoins_inv hmv).contracts a)).trans ha))
  | pair _ _ _ _ _ me w1 admin s1 s' r _ hmv _ hc hx =>
    by_cases h1 : a = me
    · subst h1
      rw [ha] at hc
      cases hc
      have e := (Pair.execute_out hx).1
      subst e
      exact .inl (keep (setContract_self _ _ _))
    · exact .inl (keep (((setContract_ne _ _ h1).trans (congrFun (moveCoins_inv hmv).contracts a)).trans ha))
  | inst sender admin codeId m funds id kk adm2 w1 s1 fs1 hk hadm hnew hmv hx =>
    have h1 : a ≠ c.addrOf w.next := by rintro rfl; rw [ha] at hnew; cases hnew
    exact .inl (keep (((setContract_ne _ _ h1).trans (congrFun (moveCoins_inv hmv).contracts a)).trans ha))
  | migrate sender target codeId id k me s1 hk hres hc =>
    by_cases h1 : a = me
    · subst h1
      rw [ha] at hc
      cases hc
      by_cases hkp : k = .pair
      · subst hkp; exact .inl (keep (setContract_self _ _ _))
      · refine .inr ⟨?_, sender, target, codeId, id, k, rfl, hres, rfl, hk, hkp⟩
        have : migrateState k (.pair s) = .other := by cases k <;> first | rfl | exact absurd rfl hkp
        simp [World.setState, this]
    · exact .inl (keep ((setContract_ne _ _ h1).trans ha))
  | admin sender target new id adm2 me s1 hres hc _ =>
    by_cases h1 : a = me
    · subst h1
      rw [ha] at hc
      cases hc
      exact .inl ⟨adm2, setContract_self _ _ _, .inr ⟨sender, target, new, id, rfl, hres, rfl⟩⟩
    · exact .inl (keep ((setContract_ne _ _ h1).trans ha))
  | replyPair me id created admin s1 s' r hc hx =>
    by_cases h1 : a = me
    · subst h1
      obtain ⟨m, hm⟩ := hf rfl
      cases hm
    · exact .inl (keep ((setContract_ne _ _ h1).trans ha))
  | replyFactory me id created admin s1 s' r hc hx =>
    have h1 : a ≠ me := by rintro rfl; rw [ha] at hc; cases hc
    exact .inl (keep ((setContract_ne _ _ h1).trans ha))

/-- The frames a settled pair adds to the stack are its output messages, without replies. -/
theorem pair_frames_out {c : Chain} {adv : Adv} {n : Nat} {w w' : World} {f : Frame} {fs : List Frame}
    (h : StepI c adv n w f w' fs) {a : Addr} {adm : Option Addr} {s : Pair.State}
    (ha : w.contracts a = some ⟨adm, .pair s⟩) (hf : f.actor = a → ∃ m, f = .msg a (plain m)) :
    ∀ g ∈ fs, g.actor = a → ∃ m, g = .msg a (plain m) ∧
      ∃ sender target em funds id q r, f = .msg sender ⟨.exec target em funds, id⟩ ∧ c.api.resolve target = .ok a ∧
        Pair.execute c.api q a s sender funds em = .ok (s, r) ∧ plain m ∈ r.messages := by
  intro g hg hga
  have norep : ∀ {sender : Addr} {m : CosmosMsg} {id : Option Nat} {cr : Option Addr},
      f = .msg sender ⟨m, id⟩ → g ∈ replyFrame sender id cr → False := by
    intro sender m id cr hfe hr
    obtain ⟨i, rfl, rfl⟩ := mem_replyFrame hr
    subst hfe
    obtain ⟨m', hm'⟩ := hf hga
    simp only [plain, Frame.msg.injEq, SubMsg.mk.injEq] at hm'
    exact absurd hm'.2.2 (by simp)
  cases h with
  | bank => exact (norep rfl hg).elim
  | token sender _ _ _ id me _ _ _ _ r _ _ _ hc | factory sender _ _ _ id me _ _ _ _ r _ _ _ hc
  | router sender _ _ _ id me _ _ _ _ r _ _ _ hc =>
    rcases List.mem_append.mp hg with hg | hg
    · obtain ⟨m, _, rfl⟩ := mem_frames hg
      simp only [Frame.actor] at hga
      subst hga
      rw [ha] at hc; cases hc
    · exact (norep rfl hg).elim
  | pair sender target em funds id me w1 _ _ _ r hme _ _ hc hx =>
    rcases List.mem_append.mp hg with hg | hg
    · obtain ⟨m, hm, rfl⟩ := mem_frames hg
      simp only [Frame.actor] at hga
      subst hga
      rw [ha] at hc
      cases hc
      obtain ⟨h1, h2⟩ := Pair.execute_out hx
      subst h1
      obtain ⟨cm, rfl, _⟩ := h2 m hm
      exact ⟨cm, rfl, sender, target, em, funds, id, _, r, rfl, hme, hx, hm⟩
    · exact (norep rfl hg).elim
  | other sender _ _ _ id me _ _ ms _ _ hc =>
    rcases List.mem_append.mp hg with hg | hg
    · simp only [List.mem_map] at hg
      obtain ⟨m, _, rfl⟩ := hg
      simp only [Frame.actor] at hga
      subst hga
      rw [ha] at hc; cases hc
    · exact (norep rfl hg).elim
  | inst sender admin codeId m funds id kk adm2 w1 s1 fs1 hk hadm hnew hmv hx =>
    rcases List.mem_append.mp hg with hg | hg
    · obtain ⟨m, rfl⟩ := callInstantiate_frames hx _ hg
      simp only [Frame.actor] at hga
      rw [hga, ha] at hnew; cases hnew
    · exact (norep rfl hg).elim
  | migrate | admin => exact (norep rfl hg).elim
  | replyPair me _ _ _ _ _ r hc hx =>
    unfold Pair.reply at hx
    simp only [bind_eq_ok, okOr_eq_ok, canonicalize_eq_ok, pure_eq_ok, Prod.mk.injEq] at hx
    obtain ⟨lt, h1, b, h2, rfl, rfl⟩ := hx
    cases hg
  | replyFactory me _ _ _ _ _ r hc hx =>
    obtain ⟨m, _, rfl⟩ := mem_frames hg
    simp only [Frame.actor] at hga
    subst hga
    rw [ha] at hc; cases hc
  | replyOther me _ _ _ ms hc =>
    simp only [List.mem_map] at hg
    obtain ⟨m, _, rfl⟩ := hg
    simp only [Frame.actor] at hga
    subst hga
    rw [ha] at hc; cases hc

end Halo
