import Verif.Lemmas.OccursL
/-! # C27, C29, C37, C45: what can change a pair, an LP token and a factory, over all histories -/

namespace Halo

/-! ## C27 -/

/-- C27: a pair that exists between two transactions has the same assets, decimals, requirements, address and LP token
in every later state, whoever does what in between, as long as its code is not replaced by foreign code. -/
theorem C27_pair_immutable {c : Chain} {w w' : World} (hw : Reachable c w) (hl : Later c w w') {a : Addr}
    {adm adm' : Option Addr} {s s' : Pair.State} (ha : w.contracts a = some ⟨adm, .pair s⟩)
    (ha' : w'.contracts a = some ⟨adm', .pair s'⟩) : s' = s := by
  suffices h : (∃ adm, w'.contracts a = some ⟨adm, .pair s⟩) ∨ ∃ adm, w'.contracts a = some ⟨adm, .other⟩ by
    rcases h with ⟨_, h⟩ | ⟨_, h⟩
    · rw [ha'] at h; cases h; rfl
    · rw [ha'] at h; cases h
  clear ha'
  induction hl with
  | refl => exact .inl ⟨_, ha⟩
  | step v w' hl hs ih =>
    have hv := hw.later hl
    cases hs with
    | tx adv gas _ _ signer m hu hx =>
      obtain ⟨n, hr⟩ := runTx_inv hx
      refine (run_induct (P := fun w fs => ((∃ adm, w.contracts a = some ⟨adm, .pair s⟩) ∧
          ∀ f ∈ fs, f.actor = a → ∃ m, f = .msg a (plain m)) ∨ ∃ adm, w.contracts a = some ⟨adm, .other⟩)
        ?_ ?_ hr).imp (fun h => h.1) id
      · rintro n w f w' fs rest (⟨⟨_, h1⟩, h2⟩ | ⟨_, h1⟩) hst
        · rcases pair_fwd hst h1 (fun e => by obtain ⟨m, rfl⟩ := h2 f (by simp) e; exact ⟨_, rfl⟩) with ⟨_, h3, _⟩ | ⟨h3, _⟩
          · refine .inl ⟨⟨_, h3⟩, fun g hg hga => ?_⟩
            rcases List.mem_append.mp hg with hg | hg
            · obtain ⟨m, hm, _⟩ := pair_frames_out hst h1 (h2 f (by simp)) g hg hga
              exact ⟨m, hm⟩
            · exact h2 g (by simp [hg]) hga
          · exact .inr ⟨_, h3⟩
        · exact .inr ((other_step hst h1).imp fun _ h => h.1)
      · rcases ih with ⟨_, ih⟩ | ⟨_, ih⟩
        · refine .inl ⟨⟨_, ih⟩, fun f hf hfa => ?_⟩
          simp only [List.mem_singleton] at hf
          subst hf
          obtain ⟨k, _, hk⟩ := hv.contractsAt _ _ ih
          exact absurd (hk.symm.trans hfa.symm) (hu.1 k)
        · exact .inr ⟨_, ih⟩
    | block => exact ih
    | env => exact ih

/-- The demo pair before and after a swap. -/
example : ∃ w w' adm adm' s s', Reachable Demo.chain w ∧ Later Demo.chain w w' ∧
    w.contracts Demo.pAB = some ⟨adm, .pair s⟩ ∧ w'.contracts Demo.pAB = some ⟨adm', .pair s'⟩ ∧ w ≠ w' := by
  let msgs : List CosmosMsg := [.exec Demo.tA (.send Demo.pAB 1000 (.swap none none none)) []]
  obtain ⟨adm, s, h1, _⟩ := Demo.exists_pair (w := Demo.deployed) (a := Demo.pAB) (t := fun _ => true)
    (by decide +kernel)
  have hr : Demo.runs msgs Demo.deployed = .ok (Demo.worldOf (Demo.runs msgs Demo.deployed)) :=
    Demo.worldOf_eq (by decide +kernel)
  obtain ⟨adm', s', h3, _⟩ := Demo.exists_pair (w := Demo.worldOf (Demo.runs msgs Demo.deployed)) (a := Demo.pAB)
    (t := fun _ => true) (by decide +kernel)
  refine ⟨_, _, adm, adm', s, s', Demo.deployed_reachable, Demo.later_runs hr, h1, h3, ?_⟩
  intro he
  have h5 : ((Demo.tokenAt Demo.deployed Demo.tA).map fun p => p.2.balances.getD0 Demo.pAB == 11000) = some false := by
    decide +kernel
  have h6 : ((Demo.tokenAt (Demo.worldOf (Demo.runs msgs Demo.deployed)) Demo.tA).map
      fun p => p.2.balances.getD0 Demo.pAB == 11000) = some true := by decide +kernel
  rw [← he, h5] at h6
  cases h6

/-! ## C29 -/

/-- C29: in every reachable state, if the LP token recorded by a pair is a halo token then the pair is its minter,
there is no cap, and nobody can migrate it. (It is some other code only if the pair was created with a foreign
token code id.) -/
theorem C29_pair_is_minter {c : Chain} (hc : c.Lawful) {w : World} (hw : Reachable c w) {a lt : Addr}
    {adm : Option Addr} {s : Pair.State} (ha : w.contracts a = some ⟨adm, .pair s⟩)
    (hlt : c.api.human s.liquidityToken = some lt) :
    (∃ st, w.contracts lt = some ⟨none, .token st⟩ ∧ st.mint = some ⟨a, none⟩) ∨
      w.contracts lt = some ⟨none, .other⟩ := by
  rcases hw.sane.linked a adm s ha with ⟨lt', hl, hcan⟩ | ⟨_, hf, _⟩
  · have hex : ∃ k, w.contracts lt' = some k := by
      rcases hl with ⟨st, h, _⟩ | h
      · exact ⟨_, h⟩
      · exact ⟨_, h⟩
    obtain ⟨k, hk⟩ := hex
    obtain ⟨n, _, rfl⟩ := hw.contractsAt _ _ hk
    have := hc.human_canon hcan
    rw [hlt] at this
    cases this
    exact hl
  · cases hf

/-- Liquidity is provided to the pair `a`. -/
def ProvideCall (c : Chain) (a : Addr) (_ : World) (f : Frame) : Prop :=
  ∃ sender target assets tol receiver funds id,
    f = .msg sender ⟨.exec target (.provideLiquidity assets tol receiver) funds, id⟩ ∧ c.api.resolve target = .ok a

/-- C29: the supply of a pair's LP token grows in a transaction only if liquidity is provided to that pair in it
(or the pair's code is replaced). -/
theorem C29_supply_grows_only_by_deposit {c : Chain} {adv : Adv} {gas : Nat} {w w' : World} {signer : Addr}
    {m : CosmosMsg} (hw : Reachable c w) (hu : c.IsUser signer) (h : runTx c adv gas w signer m = .ok w')
    {a lt : Addr} {adm adm' : Option Addr} {s s' : Pair.State} {ladm ladm' : Option Addr} {st st' : TokenState}
    (ha : w.contracts a = some ⟨adm, .pair s⟩) (ha' : w'.contracts a = some ⟨adm', .pair s'⟩)
    (hlt : w.contracts lt = some ⟨ladm, .token st⟩) (hmint : st.mint = some ⟨a, none⟩)
    (hlt' : w'.contracts lt = some ⟨ladm', .token st'⟩) (hgrow : st.totalSupply < st'.totalSupply) :
    Occurs c adv (ProvideCall c a) gas w [.msg signer (plain m)] := by
  obtain ⟨n, hr⟩ := runTx_inv h
  have key := occurs_or (c := c) (adv := adv) (E := ProvideCall c a)
    (P := fun v fs => (∃ adm, v.contracts a = some ⟨adm, .other⟩) ∨ (∃ ladm, v.contracts lt = some ⟨ladm, .other⟩) ∨
      ((∃ adm, v.contracts a = some ⟨adm, .pair s⟩) ∧
        (∀ f ∈ fs, f.actor = a → ∃ m, f = .msg a (plain m) ∧ Pair.OutMsg m ∧ ∀ k r x fu, m ≠ .exec k (.mint r x) fu) ∧
        ∃ t ladm, v.contracts lt = some ⟨ladm, .token t⟩ ∧ t.mint = some ⟨a, none⟩ ∧ t.totalSupply ≤ st.totalSupply))
    ?_ ?_ hr
  · rcases key with ho | ⟨_, h1⟩ | ⟨_, h1⟩ | ⟨_, _, t, _, h1, _, h2⟩
    · exact ho
    · rw [ha'] at h1; cases h1
    · rw [hlt'] at h1; cases h1
    · rw [hlt'] at h1; cases h1; omega
  · rintro n v f v' fs rest hp hE hst
    rcases hp with ⟨_, hp⟩ | ⟨_, hp⟩ | ⟨⟨_, h1⟩, h2, t, _, h3, h4, h5⟩
    · exact .inl ((other_step hst hp).imp fun _ h => h.1)
    · exact .inr (.inl ((other_step hst hp).imp fun _ h => h.1))
    · rcases pair_fwd hst h1 (fun e => by obtain ⟨m, rfl, _⟩ := h2 f (by simp) e; exact ⟨_, rfl⟩) with ⟨_, h6, _⟩ | ⟨h6, _⟩
      · have hfr : ∀ g ∈ fs ++ rest, g.actor = a →
            ∃ m, g = .msg a (plain m) ∧ Pair.OutMsg m ∧ ∀ k r x fu, m ≠ .exec k (.mint r x) fu := by
          intro g hg hga
          rcases List.mem_append.mp hg with hg | hg
          · obtain ⟨m, hm, sender, target, em, funds, id, q, r, hf, hres, hx, hmem⟩ :=
              pair_frames_out hst h1 (fun e => by obtain ⟨m, hm, _⟩ := h2 f (by simp) e; exact ⟨m, hm⟩) g hg hga
            refine ⟨m, hm, ?_⟩
            obtain ⟨_, ho⟩ := Pair.execute_out hx
            obtain ⟨m', hm', ho⟩ := ho _ hmem
            have : m = m' := by simpa [plain] using hm'
            subst this
            refine ⟨ho, ?_⟩
            rintro k rc x fu rfl
            rcases Pair.execute_inv hx with ⟨sd, am, bp, ms, dst, rfl, hx⟩ | ⟨sd, am, rfl, hx⟩ | ⟨as, tol, rc, rfl, hx⟩
            · obtain ⟨_, _, o, a', od, ad, r', s', c', hs⟩ := Pair.receive_swap_inv hx
              rw [hs.h_resp] at hmem
              dsimp only at hmem
              split at hmem
              · simp only [List.mem_singleton, plain, SubMsg.mk.injEq, and_true, Asset.intoMsg] at hmem
                split at hmem <;> simp at hmem
              · cases hmem
            · obtain ⟨_, _, _, p0, p1, lt', ti, ratio, r0, r1, hs⟩ := Pair.receive_withdraw_inv (funds := funds) hx
              rw [hs.h_resp] at hmem
              simp only [List.mem_cons, plain, SubMsg.mk.injEq, and_true, List.not_mem_nil, or_false,
                Asset.intoMsg] at hmem
              rcases hmem with hmem | hmem | hmem
              · split at hmem <;> simp at hmem
              · split at hmem <;> simp at hmem
              · simp at hmem
            · exact hE ⟨sender, target, as, tol, rc, funds, id, hf, hres⟩
          · exact h2 g (by simp [hg]) hga
        rcases tok_step hst h3 with ⟨_, h7, _⟩ | h7 | ⟨sender, target, m, funds, id, t', r, hf, hres, he, h7, _, _⟩
        · exact .inr (.inr ⟨⟨_, h6⟩, hfr, t, _, h7, h4, h5⟩)
        · exact .inr (.inl ⟨_, h7⟩)
        · refine .inr (.inr ⟨⟨_, h6⟩, hfr, t', _, h7, ?_⟩)
          have hno : f.actor = a → ∃ cm, f = .msg a (plain cm) ∧ Pair.OutMsg cm ∧
              ∀ k r x fu, cm ≠ .exec k (.mint r x) fu := h2 f (by simp)
          have bad : sender = a → ∃ k fu, Pair.OutMsg (.exec k m fu) ∧ ∀ r x, m ≠ .mint r x := by
            rintro rfl
            obtain ⟨cm, h8, h9, h10⟩ := hno (by rw [hf]; rfl)
            rw [hf] at h8
            simp only [plain, Frame.msg.injEq, SubMsg.mk.injEq, true_and] at h8
            obtain ⟨rfl, _⟩ := h8
            exact ⟨_, _, h9, fun r x e => h10 target r x funds (by rw [e])⟩
          cases he with
          | mint dst x md hx hv hm hs hf hcap hb =>
            rw [h4] at hm
            cases hm
            obtain ⟨_, _, _, h8⟩ := bad hs.symm
            exact absurd rfl (h8 _ _)
          | renounce md hm hs =>
            rw [h4] at hm
            cases hm
            obtain ⟨_, _, h8, _⟩ := bad hs.symm
            exact h8.elim
          | newMinter _ md hm hs =>
            rw [h4] at hm
            cases hm
            obtain ⟨_, _, h8, _⟩ := bad hs.symm
            exact h8.elim
          | burn => exact ⟨h4, by dsimp only; omega⟩
          | burnFrom => exact ⟨h4, by dsimp only; omega⟩
          | _ => exact ⟨h4, h5⟩
      · exact .inl ⟨_, h6⟩
  · refine .inr (.inr ⟨⟨_, ha⟩, fun f hf hfa => ?_, st, _, hlt, hmint, le_refl _⟩)
    simp only [List.mem_singleton] at hf
    subst hf
    obtain ⟨k, _, hk⟩ := hw.contractsAt _ _ ha
    exact absurd (hk.symm.trans hfa.symm) (hu.1 k)

/-- The demo pair is the minter of its LP token, and a deposit makes its supply grow. -/
example : ∃ st, Demo.deployed.contracts Demo.lpAB = some ⟨none, .token st⟩ ∧ st.mint = some ⟨Demo.pAB, none⟩ := by
  obtain ⟨adm, s, h1, h2⟩ := Demo.exists_token (w := Demo.deployed) (a := Demo.lpAB)
    (t := fun p => decide (p.1 = none) && decide (p.2.mint = some ⟨Demo.pAB, none⟩)) (by decide +kernel)
  simp only [Bool.and_eq_true, decide_eq_true_eq] at h2
  obtain ⟨rfl, h2⟩ := h2
  exact ⟨s, h1, h2⟩

example :
    let w := Demo.worldOf (Demo.runs [Demo.approve Demo.tB Demo.pAB] Demo.deployed)
    let w' := Demo.worldOf (runTx Demo.chain Demo.idle 20 w Demo.user (Demo.provideMsg Demo.pAB Demo.tA Demo.tB))
    runTx Demo.chain Demo.idle 20 w Demo.user (Demo.provideMsg Demo.pAB Demo.tA Demo.tB) = .ok w' ∧
    ((Demo.tokenAt w Demo.lpAB).map fun p => decide (14142 = p.2.totalSupply)) = some true ∧
    ((Demo.tokenAt w' Demo.lpAB).map fun p => decide (14142 < p.2.totalSupply)) = some true :=
  ⟨Demo.worldOf_eq (by decide +kernel), by decide +kernel, by decide +kernel⟩

/-! ## C37 -/

/-- C37: administration messages are accepted from the owner only. -/
theorem C37_owner_only {api : Api} {q : Querier} {me : Addr} {s s' : Factory.State} {sender : Addr} {m : ExecMsg}
    {r : Response} (h : Factory.execute api q me s sender m = .ok (s', r))
    (hm : (∃ o t p, m = .updateConfig o t p) ∨ (∃ d n, m = .addNativeTokenDecimals d n) ∨ ∃ k i, m = .migratePair k i) :
    api.canon sender = some s.config.owner := by
  cases Factory.execute_inv h with
  | update _ _ _ _ hs => exact hs
  | addNative _ _ _ hs => exact hs
  | migrate _ _ hs => exact hs
  | create => rcases hm with ⟨_, _, _, h⟩ | ⟨_, _, h⟩ | ⟨_, _, h⟩ <;> cases h

/-- Who may call `updateConfig` on the demo factory: its owner can. -/
example : ((Factory.execute Demo.api (Demo.q 0 0 0) Demo.fac
    ⟨⟨Demo.user, 2, 1⟩, none, [], []⟩ Demo.user (.updateConfig none (some 7) none)).map
      fun p => decide (p.1.config = ⟨Demo.user, 2, 7⟩)) = .ok true := by decide +kernel

/-- The current owner of the factory `a` sends it one of the two messages that change its settings. -/
def OwnerCall (c : Chain) (a : Addr) (v : World) (f : Frame) : Prop :=
  ∃ sender target m funds id adm s, f = .msg sender ⟨.exec target m funds, id⟩ ∧ c.api.resolve target = .ok a ∧
    ((∃ o t p, m = .updateConfig o t p) ∨ ∃ d n, m = .addNativeTokenDecimals d n) ∧
    v.contracts a = some ⟨adm, .factory s⟩ ∧ c.api.canon sender = some s.config.owner

/-- C37: the owner, the code ids and the registered decimals of a factory change in a transaction only if the owner
at that moment sends `updateConfig` or `addNativeTokenDecimals` to it. -/
theorem C37_settings_change_only_by_owner {c : Chain} {adv : Adv} {gas : Nat} {w w' : World} {signer : Addr}
    {m : CosmosMsg} (h : runTx c adv gas w signer m = .ok w') {a : Addr} {adm adm' : Option Addr}
    {s s' : Factory.State} (ha : w.contracts a = some ⟨adm, .factory s⟩)
    (ha' : w'.contracts a = some ⟨adm', .factory s'⟩) (hne : s'.config ≠ s.config ∨ s'.allow ≠ s.allow) :
    Occurs c adv (OwnerCall c a) gas w [.msg signer (plain m)] := by
  obtain ⟨n, hr⟩ := runTx_inv h
  have key := occurs_or (c := c) (adv := adv) (E := OwnerCall c a)
    (P := fun v _ => (∃ adm, v.contracts a = some ⟨adm, .other⟩) ∨
      ∃ t adm, v.contracts a = some ⟨adm, .factory t⟩ ∧ t.config = s.config ∧ t.allow = s.allow)
    ?_ (.inr ⟨s, _, ha, rfl, rfl⟩) hr
  · rcases key with ho | ⟨_, h1⟩ | ⟨t, _, h1, h2, h3⟩
    · exact ho
    · rw [ha'] at h1; cases h1
    · rw [ha'] at h1; cases h1
      rcases hne with hne | hne
      · exact absurd h2 hne
      · exact absurd h3 hne
  · rintro n v f v' fs rest (⟨_, h1⟩ | ⟨t, adm1, h1, h2, h3⟩) hE hst
    · exact .inl ((other_step hst h1).imp fun _ h => h.1)
    · obtain ⟨k, _, h4, h5, _⟩ := facStep hst h1
      cases h5 with
      | same => exact .inr ⟨t, _, h4, h2, h3⟩
      | other => exact .inl ⟨_, h4⟩
      | exec sender target m funds id w1 s' r hf hme hm hbk hr hx =>
        cases hx with
        | update o tc pc own hs =>
          exact absurd ⟨sender, target, _, funds, id, adm1, t, hf, hme, .inl ⟨_, _, _, rfl⟩, h1, hs⟩ hE
        | addNative d dec b hs =>
          exact absurd ⟨sender, target, _, funds, id, adm1, t, hf, hme, .inr ⟨_, _, rfl⟩, h1, hs⟩ hE
        | create => exact .inr ⟨_, _, h4, h2, h3⟩
        | migrate => exact .inr ⟨_, _, h4, h2, h3⟩
      | reply id created s' r hf hx =>
        obtain ⟨_, _, _, _, _, _, _, _, _, _, _, rfl⟩ := Factory.reply_inv hx
        exact .inr ⟨_, _, h4, h2, h3⟩

/-- The two messages only a contract's admin may send. -/
def AsAdmin (m : CosmosMsg) : Prop := (∃ k i, m = .migrate k i) ∨ ∃ k x, m = .updateAdmin k x

/-- C37: a transaction that the owner (a user account) did not sign changes neither the factory's settings nor the code
or the admin of any pair it created, as long as the factory's own code is not replaced. -/
theorem C37_not_without_owner {c : Chain} (hl : c.Lawful) {adv : Adv} {gas : Nat} {w w' : World} {signer o : Addr}
    {m : CosmosMsg} (hw : Reachable c w) (hu : c.IsUser signer) (h : runTx c adv gas w signer m = .ok w') {a : Addr}
    {adm adm' : Option Addr} {s s' : Factory.State} (ha : w.contracts a = some ⟨adm, .factory s⟩)
    (ha' : w'.contracts a = some ⟨adm', .factory s'⟩)
    (ho : c.api.human s.config.owner = some o) (hou : c.IsUser o) (hne : signer ≠ o) :
    s'.config = s.config ∧ s'.allow = s.allow ∧
      ∀ b p, w.contracts b = some ⟨some a, .pair p⟩ → w'.contracts b = some ⟨some a, .pair p⟩ := by
  obtain ⟨n, hr⟩ := runTx_inv h
  have key := run_induct (c := c) (adv := adv)
    (P := fun v fs => Sane c v fs ∧ (∀ f ∈ fs, f.actor ≠ o) ∧ ((∃ adm, v.contracts a = some ⟨adm, .other⟩) ∨
      (∃ t adm, v.contracts a = some ⟨adm, .factory t⟩ ∧ t.config = s.config ∧ t.allow = s.allow) ∧
      (∀ cm id, AsAdmin cm → .msg a ⟨cm, id⟩ ∉ fs) ∧
      ∀ b p, w.contracts b = some ⟨some a, .pair p⟩ → v.contracts b = some ⟨some a, .pair p⟩ ∧ Settled b fs))
    ?_ ?_ hr
  · obtain ⟨_, _, ⟨_, h1⟩ | ⟨⟨t, _, h1, h2, h3⟩, _, h4⟩⟩ := key
    · rw [ha'] at h1; cases h1
    · rw [ha'] at h1; cases h1
      exact ⟨h2, h3, fun b p hb => (h4 b p hb).1⟩
  · rintro n v f v' fs rest ⟨hs, hact, hp⟩ hst
    have hs' := hs.step hst
    refine ⟨hs', ?_, ?_⟩
    · intro g hg
      rcases List.mem_append.mp hg with hg | hg
      · rcases actor_step hst g hg with e | e
        · rw [e]; exact hact f (by simp)
        · intro e2
          rw [e2, hs'.at_addr.user hou.1] at e
          cases e
      · exact hact g (by simp [hg])
    · rcases hp with ⟨_, h1⟩ | ⟨⟨t, _, h1, h2, h3⟩, h4, h5⟩
      · exact .inl ((other_step hst h1).imp fun _ h => h.1)
      · have nown : ∀ {sender : Addr} {cm : SubMsg}, f = .msg sender cm → ¬ c.api.canon sender = some t.config.owner := by
          intro sender cm hf hcan
          have : f.actor = o := hs.actor_eq hl (by simp) (b := t.config.owner) (by rw [hf]; exact hcan) (by rw [h2]; exact ho)
          exact hact f (by simp) this
        obtain ⟨k, _, h6, h7, _⟩ := facStep hst h1
        have pairs : ∀ b p, w.contracts b = some ⟨some a, .pair p⟩ →
            v'.contracts b = some ⟨some a, .pair p⟩ ∧ Settled b (fs ++ rest) := by
          intro b p hb
          rcases (h5 b p hb).2.step (h5 b p hb).1 hst with ⟨_, h8, h9, h10⟩ | ⟨_, sender, target, codeId, id, k, hf, _, hadm, _⟩
          · rcases h9 with rfl | ⟨_, _, _, id, hf, _, hadm⟩
            · exact ⟨h8, h10⟩
            · cases hadm
              subst hf
              exact absurd List.mem_cons_self (h4 _ id (.inr ⟨_, _, rfl⟩))
          · cases hadm
            subst hf
            exact absurd List.mem_cons_self (h4 _ id (.inl ⟨_, _, rfl⟩))
        have nomig : ∀ cm id, AsAdmin cm → Frame.msg a ⟨cm, id⟩ ∉ fs := by
          intro cm id hcm hmem
          have rep : ∀ {sd : Addr} {idd : Option Nat} {cr : Option Addr}, Frame.msg a ⟨cm, id⟩ ∉ replyFrame sd idd cr := by
            intro sd idd cr hm
            obtain ⟨_, _, h⟩ := mem_replyFrame hm
            cases h
          cases hst with
          | bank => exact rep hmem
          | migrate | admin => exact rep hmem
          | token _ _ _ _ _ me _ _ _ _ _ _ _ _ hc | pair _ _ _ _ _ me _ _ _ _ _ _ _ _ hc
          | router _ _ _ _ _ me _ _ _ _ _ _ _ _ hc =>
            rcases List.mem_append.mp hmem with hm | hm
            · obtain ⟨_, _, h⟩ := mem_frames hm
              cases h
              rw [h1] at hc; cases hc
            · exact rep hm
          | other _ _ _ _ _ me _ _ _ _ _ hc =>
            rcases List.mem_append.mp hmem with hm | hm
            · simp only [List.mem_map] at hm
              obtain ⟨_, _, h⟩ := hm
              cases h
              rw [h1] at hc; cases hc
            · exact rep hm
          | factory sender target em funds id2 me w1 admin s1 s' r hme hmv hr hc hx =>
            rcases List.mem_append.mp hmem with hm | hm
            · obtain ⟨sm, hsm, h⟩ := mem_frames hm
              cases h
              rw [h1] at hc; cases hc
              cases Factory.execute_inv hx with
              | update => cases hsm
              | addNative => cases hsm
              | create =>
                simp only [List.mem_singleton, SubMsg.mk.injEq] at hsm
                rcases hcm with ⟨_, _, rfl⟩ | ⟨_, _, rfl⟩ <;> cases hsm.1
              | migrate _ _ hown => exact nown rfl hown
            · exact rep hm
          | inst sender admin codeId m funds id kk adm2 w1 s1 fs1 hk hadm hnew hmv hx =>
            rcases List.mem_append.mp hmem with hm | hm
            · obtain ⟨_, h⟩ := callInstantiate_frames hx _ hm
              cases h
              rw [h1] at hnew; cases hnew
            · exact rep hm
          | replyPair me _ _ _ _ _ r hc hx =>
            obtain ⟨_, _, h⟩ := mem_frames hmem
            cases h
            rw [h1] at hc; cases hc
          | replyFactory me _ _ _ _ _ r hc hx =>
            obtain ⟨_, hsm, h⟩ := mem_frames hmem
            obtain ⟨_, _, _, _, _, _, _, _, _, _, rfl, _⟩ := Factory.reply_inv hx
            cases hsm
          | replyOther me _ _ _ ms hc =>
            simp only [List.mem_map] at hmem
            obtain ⟨_, _, h⟩ := hmem
            cases h
            rw [h1] at hc; cases hc
        have nomig' : ∀ cm id, AsAdmin cm → Frame.msg a ⟨cm, id⟩ ∉ fs ++ rest := by
          intro cm id hcm hm
          rcases List.mem_append.mp hm with hm | hm
          · exact nomig cm id hcm hm
          · exact h4 cm id hcm (by simp [hm])
        cases h7 with
        | same => exact .inr ⟨⟨t, _, h6, h2, h3⟩, nomig', pairs⟩
        | other => exact .inl ⟨_, h6⟩
        | exec sender target m funds id w1 s' r hf hme hm hbk hr hx =>
          cases hx with
          | update o tc pc own hs => exact absurd hs (nown hf)
          | addNative d dec b hs => exact absurd hs (nown hf)
          | create => exact .inr ⟨⟨_, _, h6, h2, h3⟩, nomig', pairs⟩
          | migrate => exact .inr ⟨⟨_, _, h6, h2, h3⟩, nomig', pairs⟩
        | reply id created s' r hf hx =>
          obtain ⟨_, _, _, _, _, _, _, _, _, _, _, rfl⟩ := Factory.reply_inv hx
          exact .inr ⟨⟨_, _, h6, h2, h3⟩, nomig', pairs⟩
  · refine ⟨hw.sane.start hu m, by simpa [Frame.actor] using hne, .inr ⟨⟨s, _, ha, rfl, rfl⟩, ?_, ?_⟩⟩
    · intro cm id _ hmem
      simp only [List.mem_singleton, Frame.msg.injEq] at hmem
      obtain ⟨j, _, hj⟩ := hw.contractsAt _ _ ha
      exact hu.1 j (hj.symm.trans hmem.1)
    · exact fun b p hb => ⟨hb, .start hw.contractsAt hu hb m⟩

/-- The demo factory is owned by `user`; another user's transaction (creating a pair) does not change its settings. -/
example :
    let w' := Demo.worldOf (runTx Demo.chain Demo.idle 20 Demo.deployed Demo.user2 (Demo.createMsg Demo.tA Demo.tC))
    runTx Demo.chain Demo.idle 20 Demo.deployed Demo.user2 (Demo.createMsg Demo.tA Demo.tC) = .ok w' ∧
    (match Demo.deployed.contracts Demo.fac, w'.contracts Demo.fac with
      | some ⟨_, .factory s⟩, some ⟨_, .factory s'⟩ => decide (Demo.chain.api.human s.config.owner = some Demo.user) &&
          decide (s'.pairs.length = 3)
      | _, _ => false) = true :=
  ⟨Demo.worldOf_eq (by decide +kernel), by decide +kernel⟩

/-! ## C45 -/

theorem nativeDecimals_eq_ok {c : Chain} (hl : c.Lawful) {adv : Querier} {w : World} {k : Nat} {adm : Option Addr}
    {s : Factory.State} (ha : w.contracts (c.addrOf k) = some ⟨adm, .factory s⟩) {d : Denom} {dec : Nat} :
    (querier c adv w).nativeDecimals (c.addrOf k) d = .ok dec ↔ s.allow.get d = some dec ∧ dec < 256 := by
  simp only [querier, baseQuerier, lookState, hl.resolve_addr, bind_eq_ok, Except.ok.injEq, okOr_eq_ok, pure_eq_ok]
  constructor
  · rintro ⟨_, ⟨_, rfl, _, h1, rfl⟩, h2⟩
    rw [ha] at h1
    cases h1
    simp only [chk8, Factory.queryNativeTokenDecimals, bind_eq_ok, okOr_eq_ok, require_eq_ok, pure_eq_ok] at h2
    obtain ⟨_, h2, _, h3, rfl⟩ := h2
    exact ⟨h2, h3⟩
  · rintro ⟨h2, h3⟩
    refine ⟨_, ⟨_, rfl, _, ha, rfl⟩, ?_⟩
    simp only [chk8, Factory.queryNativeTokenDecimals, bind_eq_ok, okOr_eq_ok, require_eq_ok, pure_eq_ok]
    exact ⟨_, h2, (), h3, rfl⟩

/-- C45: when a factory accepts `createPair`, every native asset's decimals are registered, and the pair is instantiated
with exactly those. -/
theorem C45_created_with_registered {c : Chain} (hl : c.Lawful) {adv : Adv} {n : Nat} {w w' : World}
    (hw : ContractsAt c w) {sender : Addr} {target : Str} {as : AssetInfo × AssetInfo} {req : Requirements}
    {funds : List Coin} {id : Option Nat} {fs : List Frame}
    (h : step c adv n w (.msg sender ⟨.exec target (.createPair as req) funds, id⟩) = .ok (w', fs)) {a : Addr}
    {adm : Option Addr} {s : Factory.State} (ht : c.api.resolve target = .ok a)
    (ha : w.contracts a = some ⟨adm, .factory s⟩) :
    ∃ d0 d1 rest, fs = .msg a ⟨.inst (some a) s.config.pairCodeId (.pair as s.config.tokenCodeId (d0, d1) req) [], some 1⟩ :: rest ∧
      (∀ d, as.1 = .native d → s.allow.get d = some d0) ∧ (∀ d, as.2 = .native d → s.allow.get d = some d1) := by
  obtain ⟨k, _, rfl⟩ := hw _ _ ha
  have hst := step_inv h
  generalize hf : Frame.msg sender ⟨.exec target (.createPair as req) funds, id⟩ = f at hst
  cases hst with
  | factory sender2 target2 m funds2 id2 me w1 admin s1 s' r hme hmv hr hc hx =>
    cases hf
    rw [ht] at hme
    cases hme
    rw [ha] at hc
    cases hc
    cases Factory.execute_inv hx with
    | create _ _ d0 d1 r0 r1 hne h0 h1 hr0 hr1 hnew =>
      have hq : ∀ d dec, AssetInfo.queryDecimals (querier c (adv.query n) w1) (c.addrOf k) (.native d) = .ok dec →
          s.allow.get d = some dec := by
        intro d dec hd
        exact ((nativeDecimals_eq_ok hl (by rw [(moveCoins_inv hmv).contracts]; exact ha)).mp hd).1
      exact ⟨d0, d1, _, rfl, fun d hd => hq d d0 (by rw [← hd]; exact h0), fun d hd => hq d d1 (by rw [← hd]; exact h1)⟩
  | token _ _ _ _ _ _ _ _ _ _ _ hme _ _ hc | pair _ _ _ _ _ _ _ _ _ _ _ hme _ _ hc
  | router _ _ _ _ _ _ _ _ _ _ _ hme _ _ hc =>
    cases hf; rw [ht] at hme; cases hme; rw [ha] at hc; cases hc
  | other _ _ _ _ _ _ _ _ _ hme _ hc => cases hf; rw [ht] at hme; cases hme; rw [ha] at hc; cases hc
  | _ => cases hf

/-- C45: the decimals registered for a denom change only when the owner registers them, and then the factory holds some
of the denom. -/
theorem C45_registered_by_owner {c : Chain} {adv : Adv} {n : Nat} {w w' : World} {f : Frame} {fs : List Frame}
    (h : step c adv n w f = .ok (w', fs)) {a : Addr} {adm adm' : Option Addr} {s s' : Factory.State} {d : Denom}
    (ha : w.contracts a = some ⟨adm, .factory s⟩) (ha' : w'.contracts a = some ⟨adm', .factory s'⟩)
    (hne : s'.allow.get d ≠ s.allow.get d) :
    ∃ sender target dec funds id, f = .msg sender ⟨.exec target (.addNativeTokenDecimals d dec) funds, id⟩ ∧
      c.api.resolve target = .ok a ∧ c.api.canon sender = some s.config.owner ∧
      s'.allow.get d = some dec ∧ w'.bal d a ≠ 0 := by
  have hst := step_inv h
  obtain ⟨k, _, h1, h2, _⟩ := facStep hst ha
  rw [ha'] at h1
  cases h1
  cases h2 with
  | same => exact absurd rfl hne
  | reply id created s' r hf hx =>
    obtain ⟨_, _, _, _, _, _, _, _, _, _, _, rfl⟩ := Factory.reply_inv hx
    exact absurd rfl hne
  | exec sender target m funds id w1 s' r hf hme hm hbk hr hx =>
    cases hx with
    | update => exact absurd rfl hne
    | create => exact absurd rfl hne
    | migrate => exact absurd rfl hne
    | addNative d' dec b hs hb hpos =>
      by_cases hd : d' = d
      · subst hd
        refine ⟨sender, target, dec, funds, id, hf, hme, hs, AMap.get_set_self _ _ _, ?_⟩
        simp only [querier, baseQuerier, chk128, bind_eq_ok, require_eq_ok, pure_eq_ok, Except.ok.injEq] at hb
        obtain ⟨_, rfl, _, _, rfl⟩ := hb
        unfold World.bal at hpos ⊢
        rw [hbk]
        exact hpos
      · exact absurd (AMap.get_set_ne _ _ (Ne.symm hd)) hne

/-- C45: a new factory has no registered decimals. -/
theorem C45_initially_none {api : Api} {sender : Addr} {pc tc : Nat} {s : Factory.State} {r : Response}
    (h : Factory.instantiate api sender pc tc = .ok (s, r)) (d : Denom) : s.allow.get d = none := by
  simp only [Factory.instantiate, bind_eq_ok, pure_eq_ok, Prod.mk.injEq] at h
  obtain ⟨_, _, rfl, _⟩ := h
  rfl

/-- The factory's owner sends it some "u", registers 6 decimals, and a pair with "u" can be created. -/
def Demo.nativeSetup : List CosmosMsg :=
  [.bankSend Demo.fac [⟨[117], 1⟩], .exec Demo.fac (.addNativeTokenDecimals [117] 6) [],
   .exec Demo.fac (.createPair (.native [117], .token Demo.tA) ⟨[Demo.user], 10, 10⟩) []]

example : Demo.isOk (Demo.runs Demo.nativeSetup Demo.deployed) = true ∧
    Demo.isOk (Demo.runs (Demo.nativeSetup.drop 2) Demo.deployed) = false ∧
    Demo.isOk (Demo.runs (Demo.nativeSetup.drop 1) Demo.deployed) = false := by decide +kernel

end Halo
