import Verif.Lemmas.RouterCoinsL
/-! # C72: nobody but a contract's admin changes its code or its admin, and halo contracts never give that role away -/

namespace Halo

/-- The code a contract runs. -/
def CState.code : CState → Kind
  | .token _ => .token
  | .pair _ => .pair
  | .factory _ => .factory
  | .router _ => .router
  | .other => .other

/-- The current admin of the contract at `a` migrates it or names a new admin (or none). -/
def AdminCall (c : Chain) (a : Addr) (v : World) (f : Frame) : Prop :=
  ∃ sender target id k, c.api.resolve target = .ok a ∧ v.contracts a = some ⟨some sender, k⟩ ∧
    ((∃ code, f = .msg sender ⟨.migrate target code, id⟩) ∨ ∃ new, f = .msg sender ⟨.updateAdmin target new, id⟩)

theorem code_step {c : Chain} {adv : Adv} {n : Nat} {w w' : World} {f : Frame} {fs : List Frame}
    (h : StepI c adv n w f w' fs) {a : Addr} {adm : Option Addr} {k : CState} (ha : w.contracts a = some ⟨adm, k⟩)
    (hn : ¬ AdminCall c a w f) : ∃ k', w'.contracts a = some ⟨adm, k'⟩ ∧ k'.code = k.code := by
  have keep : w'.contracts a = w.contracts a → ∃ k', w'.contracts a = some ⟨adm, k'⟩ ∧ k'.code = k.code :=
    fun e => ⟨_, by rw [e, ha], rfl⟩
  cases h with
  | bank _ _ _ _ _ _ _ _ hmv => exact keep (by rw [(moveCoins_inv hmv).contracts])
  | other _ _ _ _ _ _ _ _ _ _ hmv => exact keep (by rw [(moveCoins_inv hmv).contracts])
  | replyOther => exact keep rfl
  | token _ _ _ _ _ me w1 admin s1 s' r _ hmv _ hc _ | pair _ _ _ _ _ me w1 admin s1 s' r _ hmv _ hc _
  | factory _ _ _ _ _ me w1 admin s1 s' r _ hmv _ hc _ | router _ _ _ _ _ me w1 admin s1 s' r _ hmv _ hc _ =>
    by_cases h1 : a = me
    · subst h1
      rw [ha] at hc
      cases hc
      exact ⟨_, setContract_self _ _ _, rfl⟩
    · exact keep ((setContract_ne _ _ h1).trans (congrFun (moveCoins_inv hmv).contracts a))
  | inst sender admin codeId m funds id kk adm2 w1 s1 fs1 hk hadm hnew hmv hx =>
    have h1 : a ≠ c.addrOf w.next := by rintro rfl; rw [ha] at hnew; cases hnew
    exact keep ((setContract_ne _ _ h1).trans (congrFun (moveCoins_inv hmv).contracts a))
  | replyPair me _ _ admin s1 s' r hc hx | replyFactory me _ _ admin s1 s' r hc hx =>
    by_cases h1 : a = me
    · subst h1
      rw [ha] at hc
      cases hc
      exact ⟨_, setContract_self _ _ _, rfl⟩
    · exact keep (setContract_ne _ _ h1)
  | migrate sender target code id k me s1 _ hme hc =>
    by_cases h1 : a = me
    · subst h1
      exact absurd ⟨sender, target, id, s1, hme, hc, .inl ⟨code, rfl⟩⟩ hn
    · exact keep (setContract_ne _ _ h1)
  | admin sender target new id adm2 me s1 hme hc _ =>
    by_cases h1 : a = me
    · subst h1
      exact absurd ⟨sender, target, id, s1, hme, hc, .inr ⟨new, rfl⟩⟩ hn
    · exact keep (setContract_ne _ _ h1)

/-- C72: if a transaction changes the code or the admin of a contract then, in that transaction, the contract's admin of
that moment sent a migration or a change of admin for it. -/
theorem C72_only_by_admin {c : Chain} {adv : Adv} {gas : Nat} {w w' : World} {signer : Addr} {m : CosmosMsg}
    (h : runTx c adv gas w signer m = .ok w') {a : Addr} {adm : Option Addr} {k : CState}
    (ha : w.contracts a = some ⟨adm, k⟩)
    (hne : ∀ k', w'.contracts a = some ⟨adm, k'⟩ → k'.code ≠ k.code) :
    Occurs c adv (AdminCall c a) gas w [.msg signer (plain m)] := by
  obtain ⟨n, hr⟩ := runTx_inv h
  rcases occurs_or (c := c) (adv := adv) (E := AdminCall c a)
    (P := fun v _ => ∃ k', v.contracts a = some ⟨adm, k'⟩ ∧ k'.code = k.code)
    (fun n v f v' fs rest ⟨k1, h1, h2⟩ hE hst => by
      obtain ⟨k2, h3, h4⟩ := code_step hst h1 hE
      exact ⟨k2, h3, h4.trans h2⟩) ⟨k, ha, rfl⟩ hr with ho | ⟨k', h1, h2⟩
  · exact ho
  · exact absurd h2 (hne k' h1)

/-- C72: a contract never disappears. -/
theorem C72_stays {c : Chain} {w w' : World} (hl : Later c w w') {a : Addr} {k : Contract} (ha : w.contracts a = some k) :
    ∃ k', w'.contracts a = some k' := by
  induction hl with
  | refl => exact ⟨k, ha⟩
  | step v w' hl hs ih =>
    cases hs with
    | tx adv gas _ _ signer m hu hx =>
      obtain ⟨n, hr⟩ := runTx_inv hx
      refine run_induct (P := fun v _ => ∃ k', v.contracts a = some k') ?_ ih hr
      rintro n v f v' fs rest ⟨⟨adm, k1⟩, h1⟩ hst
      obtain ⟨adm', k', h2, _⟩ := admin_step hst h1
      exact ⟨_, h2⟩
    | block => exact ih
    | env => exact ih

/-- C72: a contract without an admin (such as every LP token, C29) keeps its code, and stays without an admin, forever. -/
theorem C72_frozen {c : Chain} {w w' : World} (hl : Later c w w') {a : Addr} {k : CState}
    (ha : w.contracts a = some ⟨none, k⟩) : ∃ k', w'.contracts a = some ⟨none, k'⟩ ∧ k'.code = k.code := by
  induction hl with
  | refl => exact ⟨k, ha, rfl⟩
  | step v w' hl hs ih =>
    cases hs with
    | tx adv gas _ _ signer m hu hx =>
      obtain ⟨n, hr⟩ := runTx_inv hx
      refine run_induct (P := fun v _ => ∃ k', v.contracts a = some ⟨none, k'⟩ ∧ k'.code = k.code) ?_ ih hr
      rintro n v f v' fs rest ⟨k1, h1, h2⟩ hst
      obtain ⟨k2, h3, h4⟩ := code_step hst h1 (by
        rintro ⟨_, _, _, _, _, h3, _⟩
        rw [h1] at h3
        cases h3)
      exact ⟨k2, h3, h4.trans h2⟩
    | block => exact ih
    | env => exact ih

/-- What halo code sends: no change of an admin, and no migration unless it is a factory. -/
theorem halo_frames {c : Chain} {adv : Adv} {n : Nat} {w w' : World} {f : Frame} {fs : List Frame}
    (h : StepI c adv n w f w' fs) {a : Addr} {adm : Option Addr} {k : CState} (ha : w.contracts a = some ⟨adm, k⟩)
    (hk : k ≠ .other) {cm : CosmosMsg} {id : Option Nat} (hm : .msg a ⟨cm, id⟩ ∈ fs) :
    (∀ t x, cm ≠ .updateAdmin t x) ∧ (k.code ≠ .factory → ∀ t x, cm ≠ .migrate t x) := by
  have rep : ∀ {sd : Addr} {idd : Option Nat} {cr : Option Addr}, Frame.msg a ⟨cm, id⟩ ∉ replyFrame sd idd cr := by
    intro sd idd cr hm
    obtain ⟨_, _, h⟩ := mem_replyFrame hm
    cases h
  cases h with
  | bank => exact absurd hm rep
  | migrate | admin => exact absurd hm rep
  | token _ _ _ _ _ me _ _ _ _ r _ _ _ hc hx =>
    rcases List.mem_append.mp hm with hm | hm
    · obtain ⟨sm, hsm, h⟩ := mem_frames hm
      cases h
      obtain ⟨t, b, y, _, h⟩ := Token.eff_out (Token.execute_inv hx) _ hsm
      cases h
      exact ⟨fun _ _ => nofun, fun _ _ _ => nofun⟩
    · exact absurd hm rep
  | pair _ _ _ _ _ me _ _ _ _ r _ _ _ hc hx =>
    rcases List.mem_append.mp hm with hm | hm
    · obtain ⟨sm, hsm, h⟩ := mem_frames hm
      cases h
      obtain ⟨cm', h, ho⟩ := (Pair.execute_out hx).2 _ hsm
      cases h
      constructor
      · rintro _ _ rfl; simp [Pair.OutMsg] at ho
      · rintro _ _ _ rfl; simp [Pair.OutMsg] at ho
    · exact absurd hm rep
  | router _ _ _ _ _ me _ _ _ _ r _ _ _ hc hx =>
    rcases List.mem_append.mp hm with hm | hm
    · obtain ⟨sm, hsm, h⟩ := mem_frames hm
      cases h
      obtain ⟨cm', h, p, m', funds, e, _⟩ := Router.execute_hopOut hx _ hsm
      cases h
      subst e
      exact ⟨fun _ _ => nofun, fun _ _ _ => nofun⟩
    · exact absurd hm rep
  | factory _ _ _ _ _ me _ _ _ _ r _ _ _ hc hx =>
    rcases List.mem_append.mp hm with hm | hm
    · obtain ⟨sm, hsm, h⟩ := mem_frames hm
      cases h
      rw [ha] at hc; cases hc
      refine ⟨?_, fun h => absurd rfl h⟩
      rcases Factory.eff_out (Factory.execute_inv hx) _ hsm with ⟨_, _, _, _, h⟩ | ⟨_, _, h⟩ <;> cases h <;> exact fun _ _ => nofun
    · exact absurd hm rep
  | other _ _ _ _ _ me _ _ _ _ _ hc =>
    rcases List.mem_append.mp hm with hm | hm
    · simp only [List.mem_map] at hm
      obtain ⟨_, _, h⟩ := hm
      cases h
      rw [ha] at hc; cases hc
      exact absurd rfl hk
    · exact absurd hm rep
  | inst sender admin codeId m funds id kk adm2 w1 s1 fs1 _ hadm hnew hmv hx =>
    rcases List.mem_append.mp hm with hm | hm
    · obtain ⟨_, h⟩ := callInstantiate_frames hx _ hm
      cases h
      rw [ha] at hnew; cases hnew
    · exact absurd hm rep
  | replyPair me _ _ _ _ _ r hc hx =>
    unfold Pair.reply at hx
    simp only [bind_eq_ok, okOr_eq_ok, canonicalize_eq_ok, pure_eq_ok, Prod.mk.injEq] at hx
    obtain ⟨lt, h1, b, h2, rfl, rfl⟩ := hx
    cases hm
  | replyFactory me _ _ _ _ _ r hc hx =>
    obtain ⟨_, _, _, _, _, _, _, _, _, _, rfl, _⟩ := Factory.reply_inv hx
    cases hm
  | replyOther me _ _ _ ms hc =>
    simp only [List.mem_map] at hm
    obtain ⟨_, _, h⟩ := hm
    cases h
    rw [ha] at hc; cases hc
    exact absurd rfl hk

/-- C72: a contract whose admin is a halo contract (such as a pair created by a factory) keeps that admin forever, as
long as the admin itself still runs halo code; unless the admin is a factory, it keeps its own code as well. -/
theorem C72_role_is_never_given_away {c : Chain} {w w' : World} (hw : Reachable c w) (hl : Later c w w') {a b : Addr}
    {adm adm' : Option Addr} {k k' s : CState} (ha : w.contracts a = some ⟨adm, k⟩)
    (hb : w.contracts b = some ⟨some a, s⟩) (ha' : w'.contracts a = some ⟨adm', k'⟩) (hk' : k' ≠ .other) :
    ∃ s', w'.contracts b = some ⟨some a, s'⟩ ∧ (k.code ≠ .factory → s'.code = s.code) := by
  have conv : ∀ {j : CState}, j ≠ .other → j.code ≠ .other := by
    intro j h
    cases j <;> simp_all [CState.code]
  suffices h : (∃ adm, w'.contracts a = some ⟨adm, .other⟩) ∨
      (∃ adm j, w'.contracts a = some ⟨adm, j⟩ ∧ j ≠ .other ∧ j.code = k.code) ∧
        ∃ s', w'.contracts b = some ⟨some a, s'⟩ ∧ (k.code ≠ .factory → s'.code = s.code) by
    rcases h with ⟨_, h⟩ | ⟨_, h⟩
    · rw [ha'] at h; cases h; exact absurd rfl hk'
    · exact h
  clear ha'
  induction hl with
  | refl =>
    by_cases hk : k = .other
    · subst hk; exact .inl ⟨_, ha⟩
    · exact .inr ⟨⟨_, _, ha, hk, rfl⟩, s, hb, fun _ => rfl⟩
  | step v w' hl hs ih =>
    have hv := hw.later hl
    cases hs with
    | tx adv gas _ _ signer m hu hx =>
      obtain ⟨n, hr⟩ := runTx_inv hx
      refine (run_induct (P := fun v fs => (∃ adm, v.contracts a = some ⟨adm, .other⟩) ∨
        ((∃ adm j, v.contracts a = some ⟨adm, j⟩ ∧ j ≠ .other ∧ j.code = k.code) ∧
          ∃ s', v.contracts b = some ⟨some a, s'⟩ ∧ (k.code ≠ .factory → s'.code = s.code)) ∧
        ∀ cm id, .msg a ⟨cm, id⟩ ∈ fs → (∀ t x, cm ≠ .updateAdmin t x) ∧ (k.code ≠ .factory → ∀ t x, cm ≠ .migrate t x))
        ?_ ?_ hr).imp id And.left
      · rintro n v f v' fs rest (⟨_, h1⟩ | ⟨⟨⟨adm1, j, h1, h2, h3⟩, s', h4, h5⟩, h6⟩) hst
        · exact .inl ((other_step hst h1).imp fun _ h => h.1)
        · have hfr : ∀ cm id, .msg a ⟨cm, id⟩ ∈ fs ++ rest →
              (∀ t x, cm ≠ .updateAdmin t x) ∧ (k.code ≠ .factory → ∀ t x, cm ≠ .migrate t x) := by
            intro cm id hm
            rcases List.mem_append.mp hm with hm | hm
            · rw [← h3]; exact halo_frames hst h1 h2 hm
            · exact h6 cm id (by simp [hm])
          have hb' : ∃ s', v'.contracts b = some ⟨some a, s'⟩ ∧ (k.code ≠ .factory → s'.code = s.code) := by
            obtain ⟨adm2, s2, h7, h8⟩ := admin_step hst h4
            rcases h8 with rfl | ⟨_, _, _, id, hf, _, e⟩
            · refine ⟨s2, h7, fun hkf => ?_⟩
              by_cases hE : AdminCall c b v f
              · obtain ⟨sender, target, id, k3, _, h9, ⟨code, hf⟩ | ⟨new, hf⟩⟩ := hE
                · rw [h4] at h9; cases h9
                  subst hf
                  exact absurd rfl ((h6 _ id List.mem_cons_self).2 hkf _ _)
                · rw [h4] at h9; cases h9
                  subst hf
                  exact absurd rfl ((h6 _ id List.mem_cons_self).1 _ _)
              · obtain ⟨k3, h9, h10⟩ := code_step hst h4 hE
                rw [h7] at h9; cases h9
                exact h10.trans (h5 hkf)
            · cases e
              subst hf
              exact absurd rfl ((h6 _ id List.mem_cons_self).1 _ _)
          by_cases hE : AdminCall c a v f
          · obtain ⟨adm2, j2, h7, _⟩ := admin_step hst h1
            by_cases hj : j2 = .other
            · subst hj; exact .inl ⟨_, h7⟩
            · refine .inr ⟨⟨⟨adm2, j2, h7, hj, ?_⟩, hb'⟩, hfr⟩
              cases hst with
              | migrate sender target code id kk me s1 _ hme hc =>
                by_cases e : a = me
                · subst e
                  rw [h1] at hc; cases hc
                  simp only [World.setState, setContract_self, Option.some.injEq, Contract.mk.injEq] at h7
                  obtain ⟨_, rfl⟩ := h7
                  rw [← h3]
                  cases kk <;> cases j <;> simp [migrateState, CState.code] at hj ⊢
                · rw [World.setState, setContract_ne _ _ e, h1] at h7; cases h7; exact h3
              | admin sender target new id adm3 me s1 hme hc _ =>
                by_cases e : a = me
                · subst e
                  rw [h1] at hc; cases hc
                  simp only [World.setState, setContract_self, Option.some.injEq, Contract.mk.injEq] at h7
                  obtain ⟨_, rfl⟩ := h7
                  exact h3
                · rw [World.setState, setContract_ne _ _ e, h1] at h7; cases h7; exact h3
              | _ => obtain ⟨_, _, _, _, _, _, ⟨_, hf⟩ | ⟨_, hf⟩⟩ := hE <;> cases hf
          · obtain ⟨j2, h7, h8⟩ := code_step hst h1 hE
            refine .inr ⟨⟨⟨_, j2, h7, ?_, h8.trans h3⟩, hb'⟩, hfr⟩
            rintro rfl
            exact conv h2 h8.symm
      · rcases ih with ih | ih
        · exact .inl ih
        · refine .inr ⟨ih, fun cm id hm => ?_⟩
          simp only [List.mem_singleton, Frame.msg.injEq] at hm
          obtain ⟨⟨_, _, h1, _⟩, _⟩ := ih
          obtain ⟨j, _, hj⟩ := hv.contractsAt _ _ h1
          exact absurd (hj.symm.trans hm.1) (hu.1 j)
    | block => exact ih
    | env => exact ih

namespace Demo

/-- Admin and code of a contract. -/
def roleAt (w : World) (a : Addr) : Option (Option Addr × Kind) := (w.contracts a).map fun k => (k.admin, k.state.code)

def rou2 : Addr := chain.addrOf 9

/-- `deployed`, with a second router whose admin is `user`. -/
def owned : World := worldOf (runs [.inst (some user) 4 (.router fac) []] deployed)

/-- `user` may give the role away, nobody else may take it. -/
example :
    let w' := worldOf (runTx chain idle 20 owned user (.updateAdmin rou2 none))
    runTx chain idle 20 owned user (.updateAdmin rou2 none) = .ok w' ∧ roleAt owned rou2 = some (some user, .router) ∧
      roleAt w' rou2 = some (none, .router) ∧
      isOk (runTx chain idle 20 owned user2 (.updateAdmin rou2 (some user2))) = false ∧
      isOk (runTx chain idle 20 w' user (.updateAdmin rou2 (some user))) = false :=
  ⟨worldOf_eq (by decide +kernel), by decide +kernel, by decide +kernel, by decide +kernel, by decide +kernel⟩

/-- An LP token has no admin; a pair's admin is the factory, whose owner may migrate the pair, but the admin stays. -/
example :
    let w' := worldOf (runs [.exec fac (.migratePair pAB (some 2)) []] deployed)
    Later chain deployed w' ∧ roleAt deployed lpAB = some (none, .token) ∧ roleAt w' lpAB = some (none, .token) ∧
      roleAt deployed pAB = some (some fac, .pair) ∧ roleAt w' pAB = some (some fac, .pair) ∧
      roleAt w' fac = some (none, .factory) :=
  ⟨later_runs (worldOf_eq (by decide +kernel)), by decide +kernel, by decide +kernel, by decide +kernel, by decide +kernel,
    by decide +kernel⟩

end Demo

end Halo
