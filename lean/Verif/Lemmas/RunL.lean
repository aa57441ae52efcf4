import Verif.Lemmas.ChainL
/-! # Induction over runs and histories (helper lemmas) -/

namespace Halo

theorem run_nil {c : Chain} {adv : Adv} {n : Nat} {w : World} : run c adv n w [] = .ok (n, w) := by
  cases n <;> rfl

theorem run_cons_inv {c : Chain} {adv : Adv} {n n' : Nat} {w w' : World} {f : Frame} {fs : List Frame}
    (h : run c adv n w (f :: fs) = .ok (n', w')) :
    ∃ m w1 fs1, n = m + 1 ∧ step c adv m w f = .ok (w1, fs1) ∧ run c adv m w1 (fs1 ++ fs) = .ok (n', w') := by
  cases n with
  | zero => cases h
  | succ m =>
    simp only [run, bind_eq_ok, Prod.exists] at h
    obtain ⟨w1, fs1, h1, h2⟩ := h
    exact ⟨m, w1, fs1, rfl, h1, h2⟩

/-- Running a concatenation is running the parts one after the other. -/
theorem run_append {c : Chain} {adv : Adv} {n n' : Nat} {w w' : World} {fs gs : List Frame} :
    run c adv n w (fs ++ gs) = .ok (n', w') ↔
      ∃ m v, run c adv n w fs = .ok (m, v) ∧ run c adv m v gs = .ok (n', w') := by
  induction n generalizing w fs with
  | zero =>
    cases fs with
    | nil =>
      simp only [List.nil_append, run_nil]
      constructor
      · intro h; exact ⟨_, _, rfl, h⟩
      · rintro ⟨_, _, h1, h2⟩; cases h1; exact h2
    | cons f fs => simp [run]
  | succ k ih =>
    cases fs with
    | nil =>
      simp only [List.nil_append, run_nil]
      constructor
      · intro h; exact ⟨_, _, rfl, h⟩
      · rintro ⟨_, _, h1, h2⟩; cases h1; exact h2
    | cons f fs =>
      simp only [List.cons_append, run, bind_eq_ok, Prod.exists]
      constructor
      · rintro ⟨w1, fs1, h1, h2⟩
        rw [← List.append_assoc, ih] at h2
        obtain ⟨m, v, h2, h3⟩ := h2
        exact ⟨m, v, ⟨w1, fs1, h1, h2⟩, h3⟩
      · rintro ⟨m, v, ⟨w1, fs1, h1, h2⟩, h3⟩
        refine ⟨w1, fs1, h1, ?_⟩
        rw [← List.append_assoc, ih]
        exact ⟨m, v, h2, h3⟩

/-- Invariants of worlds and stacks. -/
theorem run_induct {c : Chain} {adv : Adv} {P : World → List Frame → Prop}
    (hstep : ∀ n w f w' fs rest, P w (f :: rest) → StepI c adv n w f w' fs → P w' (fs ++ rest)) :
    ∀ {n n' : Nat} {w w' : World} {fs : List Frame}, P w fs → run c adv n w fs = .ok (n', w') → P w' [] := by
  intro n
  induction n with
  | zero =>
    intro n' w w' fs hp h
    cases fs with
    | nil => rw [run_nil] at h; cases h; exact hp
    | cons f fs => cases h
  | succ n ih =>
    intro n' w w' fs hp h
    cases fs with
    | nil => rw [run_nil] at h; cases h; exact hp
    | cons f fs =>
      obtain ⟨m, w1, fs1, hm, h1, h2⟩ := run_cons_inv h
      cases hm
      exact ih (hstep _ _ _ _ _ _ hp (step_inv h1)) h2

/-- Relations between the first and the last world, with a stack invariant. -/
theorem run_rel {c : Chain} {adv : Adv} {Q : List Frame → Prop} {T : World → World → Prop}
    (hrefl : ∀ w, T w w) (htrans : ∀ u v w, T u v → T v w → T u w)
    (hstep : ∀ n w f w' fs rest, Q (f :: rest) → StepI c adv n w f w' fs → T w w' ∧ Q (fs ++ rest))
    {n n' : Nat} {w w' : World} {fs : List Frame} (hq : Q fs) (h : run c adv n w fs = .ok (n', w')) : T w w' := by
  have := run_induct (c := c) (adv := adv) (P := fun v fs => T w v ∧ Q fs) (n := n) (n' := n') (w := w) (w' := w')
    (fs := fs) (by
      rintro n v f w' fs rest ⟨h1, h2⟩ h3
      obtain ⟨h4, h5⟩ := hstep _ _ _ _ _ _ h2 h3
      exact ⟨htrans _ _ _ h1 h4, h5⟩) ⟨hrefl w, hq⟩ h
  exact this.1

theorem runTx_inv {c : Chain} {adv : Adv} {gas : Nat} {w w' : World} {signer : Addr} {m : CosmosMsg}
    (h : runTx c adv gas w signer m = .ok w') :
    ∃ n, run c adv gas w [.msg signer (plain m)] = .ok (n, w') := by
  unfold runTx at h
  simp only [bind_eq_ok, pure_eq_ok, Prod.exists] at h
  obtain ⟨n, _, h, rfl⟩ := h
  exact ⟨n, h⟩

/-- World invariants that no frame can break hold in every reachable world. -/
theorem reachable_induct {c : Chain} {P : World → Prop} (hgen : ∀ w, Genesis w → P w)
    (hstep : ∀ adv n w f w' fs, P w → StepI c adv n w f w' fs → P w')
    (hblock : ∀ w b, P w → P { w with block := b })
    (henv : ∀ w bank', (∀ d n, (w.bank d).getD0 (c.addrOf n) ≤ (bank' d).getD0 (c.addrOf n)) → P w →
      P { w with bank := bank' }) :
    ∀ {w}, Reachable c w → P w := by
  intro w h
  induction h with
  | genesis w h => exact hgen w h
  | step w w' h hs ih =>
    cases hs with
    | tx adv gas _ _ signer m hu h =>
      obtain ⟨n, h⟩ := runTx_inv h
      exact run_induct (P := fun w _ => P w) (fun n w f w' fs _ hp hi => hstep adv n w f w' fs hp hi) ih h
    | block _ b => exact hblock _ _ ih
    | env _ bank' h => exact henv _ _ h ih

/-- Any number of chain steps. -/
inductive Later (c : Chain) : World → World → Prop where
  | refl (w : World) : Later c w w
  | step (u v w : World) (h : Later c u v) (hs : ChainStep c v w) : Later c u w

theorem Reachable.later {c : Chain} {w w' : World} (h : Reachable c w) (hl : Later c w w') : Reachable c w' := by
  induction hl with
  | refl => exact h
  | step v w hl hs ih => exact .step _ _ ih hs

@[simp] theorem setContract_self (w : World) (a : Addr) (k : Contract) :
    (w.setContract a k).contracts a = some k := by simp [World.setContract]

theorem setContract_ne (w : World) {a b : Addr} (k : Contract) (h : b ≠ a) :
    (w.setContract a k).contracts b = w.contracts b := by simp [World.setContract, h]

@[simp] theorem setContract_bank (w : World) (a : Addr) (k : Contract) : (w.setContract a k).bank = w.bank := rfl
@[simp] theorem setContract_next (w : World) (a : Addr) (k : Contract) : (w.setContract a k).next = w.next := rfl
@[simp] theorem setContract_block (w : World) (a : Addr) (k : Contract) : (w.setContract a k).block = w.block := rfl
@[simp] theorem setContract_bal (w : World) (a : Addr) (k : Contract) (d : Denom) (b : Addr) :
    (w.setContract a k).bal d b = w.bal d b := rfl

/-- How one step changes the contract store: nothing, one call, one instantiation, one migration or one change of an admin. -/
inductive StoreStep (c : Chain) (w w' : World) : Prop where
  | same (h : w'.contracts = w.contracts)
  | token (me : Addr) (admin : Option Addr) (s s' : TokenState) (sender : Addr) (m : ExecMsg) (r : Response)
      (hc : w.contracts me = some ⟨admin, .token s⟩) (hr : m.inRange = true)
      (hx : Token.execute c.api w.block s sender m = .ok (s', r))
      (hc' : w'.contracts me = some ⟨admin, .token s'⟩) (ho : ∀ a, a ≠ me → w'.contracts a = w.contracts a)
  | pair (me : Addr) (admin : Option Addr) (s s' : Pair.State)
      (hc : w.contracts me = some ⟨admin, .pair s⟩)
      (hc' : w'.contracts me = some ⟨admin, .pair s'⟩) (ho : ∀ a, a ≠ me → w'.contracts a = w.contracts a)
  | factory (me : Addr) (admin : Option Addr) (s s' : Factory.State)
      (hc : w.contracts me = some ⟨admin, .factory s⟩)
      (hc' : w'.contracts me = some ⟨admin, .factory s'⟩) (ho : ∀ a, a ≠ me → w'.contracts a = w.contracts a)
  | router (me : Addr) (admin : Option Addr) (s s' : Router.State)
      (hc : w.contracts me = some ⟨admin, .router s⟩)
      (hc' : w'.contracts me = some ⟨admin, .router s'⟩) (ho : ∀ a, a ≠ me → w'.contracts a = w.contracts a)
  | inst (me : Addr) (adv : Adv) (n : Nat) (adm : Option Addr) (k : Kind) (m : InstMsg) (sender : Addr) (s : CState) (fs : List Frame)
      (hme : me = c.addrOf w.next) (hnew : w.contracts me = none) (hx : callInstantiate c adv n me sender k m = .ok (s, fs))
      (hc' : w'.contracts me = some ⟨adm, s⟩) (ho : ∀ a, a ≠ me → w'.contracts a = w.contracts a)
      (hn : w'.next = w.next + 1)
  | migrate (me : Addr) (admin : Option Addr) (k : Kind) (s : CState)
      (hc : w.contracts me = some ⟨admin, s⟩)
      (hc' : w'.contracts me = some ⟨admin, migrateState k s⟩) (ho : ∀ a, a ≠ me → w'.contracts a = w.contracts a)
  | admin (me : Addr) (admin admin' : Option Addr) (s : CState) (sender : Addr) (hs : admin = some sender)
      (hc : w.contracts me = some ⟨admin, s⟩)
      (hc' : w'.contracts me = some ⟨admin', s⟩) (ho : ∀ a, a ≠ me → w'.contracts a = w.contracts a)

theorem storeStep {c : Chain} {adv : Adv} {n : Nat} {w w' : World} {f : Frame} {fs : List Frame}
    (h : StepI c adv n w f w' fs) : StoreStep c w w' := by
  cases h with
  | bank _ _ _ _ _ _ _ _ hm => exact .same (moveCoins_inv hm).contracts
  | token sender _ m _ _ me w1 admin s s' r _ hm hr hc hx =>
    exact .token me admin s s' sender m r hc hr hx (setContract_self _ _ _) fun a ha =>
      (setContract_ne _ _ ha).trans (congrFun (moveCoins_inv hm).contracts a)
  | pair sender _ m _ _ me w1 admin s s' r _ hm hr hc hx =>
    exact .pair me admin s s' hc (setContract_self _ _ _) fun a ha =>
      (setContract_ne _ _ ha).trans (congrFun (moveCoins_inv hm).contracts a)
  | factory sender _ m _ _ me w1 admin s s' r _ hm hr hc hx =>
    exact .factory me admin s s' hc (setContract_self _ _ _) fun a ha =>
      (setContract_ne _ _ ha).trans (congrFun (moveCoins_inv hm).contracts a)
  | router sender _ m _ _ me w1 admin s s' r _ hm hr hc hx =>
    exact .router me admin s s' hc (setContract_self _ _ _) fun a ha =>
      (setContract_ne _ _ ha).trans (congrFun (moveCoins_inv hm).contracts a)
  | other _ _ _ _ _ _ _ _ _ _ hm hc => exact .same (moveCoins_inv hm).contracts
  | inst sender admin codeId m funds id k adm w1 s fs hk hadm hnew hm hx =>
    exact .inst (c.addrOf w.next) adv n adm k m sender s fs rfl hnew hx (setContract_self _ _ _) (fun a ha =>
      (setContract_ne _ _ ha).trans (congrFun (moveCoins_inv hm).contracts a)) (moveCoins_inv hm).next
  | migrate sender _ _ _ k me s _ _ hc =>
    exact .migrate me _ k s hc (setContract_self _ _ _) fun a ha => setContract_ne _ _ ha
  | admin sender _ _ _ adm me s _ hc _ =>
    exact .admin me _ adm s sender rfl hc (setContract_self _ _ _) fun a ha => setContract_ne _ _ ha
  | replyPair me _ _ admin s s' r hc hx =>
    exact .pair me admin s s' hc (setContract_self _ _ _) fun a ha => setContract_ne _ _ ha
  | replyFactory me _ _ admin s s' r hc hx =>
    exact .factory me admin s s' hc (setContract_self _ _ _) fun a ha => setContract_ne _ _ ha
  | replyOther => exact .same rfl

end Halo
