import Verif.Lemmas.TokenInv
/-! # Who acts in a transaction (helper lemmas) -/

namespace Halo

/-- The account on whose behalf a frame runs. -/
def Frame.actor : Frame → Addr
  | .msg s _ => s
  | .reply a _ _ => a

theorem mem_replyFrame {s : Addr} {id : Option Nat} {cr : Option Addr} {g : Frame} (h : g ∈ replyFrame s id cr) :
    ∃ i, id = some i ∧ g = .reply s i cr := by
  unfold replyFrame at h
  split at h
  · exact ⟨_, rfl, by simpa using h⟩
  · cases h

theorem mem_frames {me : Addr} {r : Response} {g : Frame} (h : g ∈ frames me r) :
    ∃ m ∈ r.messages, g = .msg me m := by
  unfold frames at h
  simp only [List.mem_map] at h
  obtain ⟨m, hm, rfl⟩ := h
  exact ⟨m, hm, rfl⟩

theorem callInstantiate_frames {c : Chain} {adv : Adv} {n : Nat} {me sender : Addr} {k : Kind} {m : InstMsg}
    {s : CState} {fs : List Frame} (h : callInstantiate c adv n me sender k m = .ok (s, fs)) :
    ∀ g ∈ fs, ∃ sm, g = .msg me sm := by
  unfold callInstantiate at h
  simp only [bind_eq_ok] at h
  obtain ⟨_, _, h⟩ := h
  intro g hg
  split at h <;> try simp only [bind_eq_ok, pure_eq_ok, Prod.mk.injEq, Prod.exists] at h
  · obtain ⟨_, _, _, rfl⟩ := h; cases hg
  · obtain ⟨_, _, _, _, rfl⟩ := h; obtain ⟨m, _, rfl⟩ := mem_frames hg; exact ⟨m, rfl⟩
  · obtain ⟨_, _, _, _, rfl⟩ := h; obtain ⟨m, _, rfl⟩ := mem_frames hg; exact ⟨m, rfl⟩
  · obtain ⟨_, _, _, _, rfl⟩ := h; obtain ⟨m, _, rfl⟩ := mem_frames hg; exact ⟨m, rfl⟩
  · obtain ⟨_, _, _, rfl⟩ := h
    simp only [List.mem_map] at hg
    obtain ⟨m, _, rfl⟩ := hg; exact ⟨m, rfl⟩
  · cases h

/-- New frames run on behalf of the same account, or of a contract. -/
theorem actor_step {c : Chain} {adv : Adv} {n : Nat} {w w' : World} {f : Frame} {fs : List Frame}
    (h : StepI c adv n w f w' fs) : ∀ g ∈ fs, g.actor = f.actor ∨ (w'.contracts g.actor).isSome = true := by
  intro g hg
  cases h with
  | bank => obtain ⟨i, _, rfl⟩ := mem_replyFrame hg; exact .inl rfl
  | token _ _ _ _ _ me | pair _ _ _ _ _ me | factory _ _ _ _ _ me | router _ _ _ _ _ me =>
    rcases List.mem_append.mp hg with hg | hg
    · obtain ⟨m, _, rfl⟩ := mem_frames hg
      right; simp [Frame.actor, World.setState]
    · obtain ⟨i, _, rfl⟩ := mem_replyFrame hg; exact .inl rfl
  | other _ _ _ _ _ me w1 admin ms _ hm hc =>
    rcases List.mem_append.mp hg with hg | hg
    · simp only [List.mem_map] at hg
      obtain ⟨m, _, rfl⟩ := hg
      right
      simp [Frame.actor, (moveCoins_inv hm).contracts, hc]
    · obtain ⟨i, _, rfl⟩ := mem_replyFrame hg; exact .inl rfl
  | inst _ _ _ _ _ _ _ _ _ _ fs _ _ _ _ hx =>
    rcases List.mem_append.mp hg with hg | hg
    · obtain ⟨m, rfl⟩ := callInstantiate_frames hx _ hg
      right; simp [Frame.actor]
    · obtain ⟨i, _, rfl⟩ := mem_replyFrame hg; exact .inl rfl
  | migrate | admin => obtain ⟨i, _, rfl⟩ := mem_replyFrame hg; exact .inl rfl
  | replyPair | replyFactory => obtain ⟨m, _, rfl⟩ := mem_frames hg; exact .inl rfl
  | replyOther =>
    simp only [List.mem_map] at hg
    obtain ⟨m, _, rfl⟩ := hg; exact .inl rfl

/-- Contracts live at generated addresses only. -/
def ContractsAt (c : Chain) (w : World) : Prop :=
  ∀ a k, w.contracts a = some k → ∃ n, n < w.next ∧ a = c.addrOf n

theorem next_step {c : Chain} {adv : Adv} {n : Nat} {w w' : World} {f : Frame} {fs : List Frame}
    (h : StepI c adv n w f w' fs) : w.next ≤ w'.next := by
  cases h with
  | bank _ _ _ _ _ _ _ _ hm => exact (moveCoins_inv hm).next.ge
  | token _ _ _ _ _ me _ _ _ _ _ _ hm | pair _ _ _ _ _ me _ _ _ _ _ _ hm | factory _ _ _ _ _ me _ _ _ _ _ _ hm
  | router _ _ _ _ _ me _ _ _ _ _ _ hm => exact (moveCoins_inv hm).next.ge
  | other _ _ _ _ _ _ _ _ _ _ hm => exact (moveCoins_inv hm).next.ge
  | inst _ _ _ _ _ _ _ _ _ _ _ _ _ _ hm =>
    have := (moveCoins_inv hm).next
    simp only [setContract_next, this]; omega
  | migrate | admin | replyPair | replyFactory | replyOther => exact le_refl _

theorem ContractsAt.step {c : Chain} {adv : Adv} {n : Nat} {w w' : World} {f : Frame} {fs : List Frame}
    (hw : ContractsAt c w) (h : StepI c adv n w f w' fs) : ContractsAt c w' := by
  have hn := next_step h
  have keep : ∀ a k, w.contracts a = some k → ∃ n, n < w'.next ∧ a = c.addrOf n := by
    intro a k hk
    obtain ⟨m, h1, h2⟩ := hw a k hk
    exact ⟨m, by omega, h2⟩
  intro a k ha
  cases storeStep h with
  | same h => rw [h] at ha; exact keep a k ha
  | token me admin s1 s2 _ _ _ hc _ _ _ ho =>
    by_cases h1 : a = me
    · subst h1; exact keep _ _ hc
    · rw [ho a h1] at ha; exact keep _ _ ha
  | pair me admin s1 s2 hc hc' ho | factory me admin s1 s2 hc hc' ho | router me admin s1 s2 hc hc' ho =>
    by_cases h1 : a = me
    · subst h1; exact keep _ _ hc
    · rw [ho a h1] at ha; exact keep _ _ ha
  | inst me adv n adm2 kk m sender s2 fs hme hnew hx hc' ho hn' =>
    by_cases h1 : a = me
    · exact ⟨w.next, by omega, h1.trans hme⟩
    · rw [ho a h1] at ha; exact keep _ _ ha
  | migrate me admin k s2 hc hc' ho | admin me _ _ _ _ _ hc hc' ho =>
    by_cases h1 : a = me
    · subst h1; exact keep _ _ hc
    · rw [ho a h1] at ha; exact keep _ _ ha

theorem Reachable.contractsAt {c : Chain} {w : World} (h : Reachable c w) : ContractsAt c w :=
  reachable_induct (P := ContractsAt c) (fun w hg a k ha => by rw [hg.2 a] at ha; cases ha)
    (fun _ _ _ _ _ _ hp hs => hp.step hs) (fun _ _ hp => hp) (fun _ _ _ hp => hp) h

/-- An account that is nobody's contract. -/
theorem ContractsAt.user {c : Chain} {w : World} (h : ContractsAt c w) {u : Addr} (hu : ∀ n, c.addrOf n ≠ u) :
    w.contracts u = none := by
  cases hk : w.contracts u with
  | none => rfl
  | some k =>
    obtain ⟨n, _, hn⟩ := h u k hk
    exact absurd hn.symm (hu n)

/-- A user who did not sign never acts. -/
theorem run_without {c : Chain} {adv : Adv} {u : Addr} (hu : ∀ n, c.addrOf n ≠ u) {T : World → World → Prop}
    (hrefl : ∀ w, T w w) (htrans : ∀ a b d, T a b → T b d → T a d)
    (hstep : ∀ n w f w' fs, ContractsAt c w → f.actor ≠ u → StepI c adv n w f w' fs → T w w')
    {n n' : Nat} {w w' : World} {fs : List Frame} (hw : ContractsAt c w) (hf : ∀ g ∈ fs, g.actor ≠ u)
    (h : run c adv n w fs = .ok (n', w')) : T w w' := by
  have := run_induct (c := c) (adv := adv)
    (P := fun v fs => ContractsAt c v ∧ T w v ∧ ∀ g ∈ fs, g.actor ≠ u) (n := n) (n' := n') (w := w) (w' := w')
    (fs := fs) (by
      rintro n v f v' fs rest ⟨h1, h2, h3⟩ hs
      have h1' := h1.step hs
      refine ⟨h1', htrans _ _ _ h2 (hstep _ _ _ _ _ h1 (h3 f (by simp)) hs), ?_⟩
      intro g hg
      rcases List.mem_append.mp hg with hg | hg
      · rcases actor_step hs g hg with h4 | h4
        · rw [h4]; exact h3 f (by simp)
        · intro h5
          rw [h5, h1'.user hu] at h4
          cases h4
      · exact h3 g (by simp [hg])) ⟨hw, hrefl w, hf⟩ h
  exact this.2.1

/-- What becomes of one contract: a token changes by `ρ` or becomes foreign code; foreign code stays; nobody becomes admin
of a contract that has none. -/
def TokStays (ρ : TokenState → TokenState → Prop) (w' : World) (t : Addr) (adm : Option Addr) (k : CState) : Prop :=
  ∃ adm', (adm = none → adm' = none) ∧
    (∀ s, k = .token s → (∃ s', w'.contracts t = some ⟨adm', .token s'⟩ ∧ ρ s s') ∨
      w'.contracts t = some ⟨adm', .other⟩) ∧
    (k = .other → w'.contracts t = some ⟨adm', .other⟩)

/-- Tokens only change by `ρ`, or stop being tokens for good. -/
def TokStep (ρ : TokenState → TokenState → Prop) (w w' : World) : Prop :=
  ∀ t adm k, w.contracts t = some ⟨adm, k⟩ → TokStays ρ w' t adm k

theorem TokStep.refl {ρ : TokenState → TokenState → Prop} (hρ : ∀ s, ρ s s) (w : World) : TokStep ρ w w := by
  intro t adm k h
  exact ⟨adm, id, fun s hs => .inl ⟨s, by rw [h, hs], hρ s⟩, fun hk => by rw [h, hk]⟩

theorem TokStep.trans {ρ : TokenState → TokenState → Prop} (hρ : ∀ a b d, ρ a b → ρ b d → ρ a d) {u v w : World}
    (h1 : TokStep ρ u v) (h2 : TokStep ρ v w) : TokStep ρ u w := by
  intro t adm k h
  obtain ⟨adm', a0, a1, a2⟩ := h1 t adm k h
  cases k with
  | token s =>
    rcases a1 s rfl with ⟨s', b1, b2⟩ | b1
    · obtain ⟨adm2, d0, d1, _⟩ := h2 t adm' _ b1
      refine ⟨adm2, fun e => d0 (a0 e), fun s hs => ?_, fun hk => by cases hk⟩
      cases hs
      rcases d1 s' rfl with ⟨s2, d1, d2⟩ | d1
      · exact .inl ⟨s2, d1, hρ _ _ _ b2 d2⟩
      · exact .inr d1
    · obtain ⟨adm2, d0, _, d2⟩ := h2 t adm' _ b1
      exact ⟨adm2, fun e => d0 (a0 e), fun s hs => .inr (d2 rfl), fun hk => by cases hk⟩
  | other =>
    obtain ⟨adm2, d0, _, d2⟩ := h2 t adm' _ (a2 rfl)
    exact ⟨adm2, fun e => d0 (a0 e), fun s hs => by (cases hs), fun _ => d2 rfl⟩
  | pair => exact ⟨adm, id, fun s hs => by (cases hs), fun hk => by cases hk⟩
  | factory => exact ⟨adm, id, fun s hs => by (cases hs), fun hk => by cases hk⟩
  | router => exact ⟨adm, id, fun s hs => by (cases hs), fun hk => by cases hk⟩

/-- Every step is a token step, if calls are. -/
theorem TokStep.of_step {c : Chain} {adv : Adv} {n : Nat} {w w' : World} {f : Frame} {fs : List Frame}
    {ρ : TokenState → TokenState → Prop} (hrefl : ∀ s, ρ s s)
    (hcall : ∀ adm me s s' m r, w.contracts me = some ⟨adm, .token s⟩ →
      Token.execute c.api w.block s f.actor m = .ok (s', r) → ρ s s')
    (h : StepI c adv n w f w' fs) : TokStep ρ w w' := by
  have keep : ∀ me, (∀ a, a ≠ me → w'.contracts a = w.contracts a) → ∀ t adm k, t ≠ me →
      w.contracts t = some ⟨adm, k⟩ → TokStays ρ w' t adm k := by
    intro me ho t adm k hne ht
    have e := (ho t hne).trans ht
    exact ⟨adm, id, fun s hs => .inl ⟨s, by rw [e, hs], hrefl s⟩, fun hk => by rw [e, hk]⟩
  have same : w'.contracts = w.contracts → TokStep ρ w w' := by
    intro e t adm k ht
    exact ⟨adm, id, fun s hs => .inl ⟨s, by rw [e, ht, hs], hrefl s⟩, fun hk => by rw [e, ht, hk]⟩
  intro t adm k ht
  cases h with
  | bank _ _ _ _ _ _ _ _ hm => exact same (moveCoins_inv hm).contracts t adm k ht
  | other _ _ _ _ _ _ _ _ _ _ hm hc => exact same (moveCoins_inv hm).contracts t adm k ht
  | replyOther => exact same rfl t adm k ht
  | token sender _ m _ _ me w1 admin s s' r _ hm hr hc hx =>
    by_cases h1 : t = me
    · subst h1
      rw [hc] at ht
      cases ht
      refine ⟨_, id, fun s2 hs2 => ?_, fun hk => by cases hk⟩
      cases hs2
      exact .inl ⟨s', by simp [World.setState], hcall _ _ _ _ _ _ hc hx⟩
    · exact keep me (fun a ha => (setContract_ne _ _ ha).trans (congrFun (moveCoins_inv hm).contracts a)) t adm k h1 ht
  | pair _ _ _ _ _ me w1 admin s s' r _ hm _ hc _ | factory _ _ _ _ _ me w1 admin s s' r _ hm _ hc _
  | router _ _ _ _ _ me w1 admin s s' r _ hm _ hc _ =>
    by_cases h1 : t = me
    · subst h1
      rw [hc] at ht
      cases ht
      exact ⟨_, id, fun s2 hs2 => (by cases hs2), fun hk => by cases hk⟩
    · exact keep me (fun a ha => (setContract_ne _ _ ha).trans (congrFun (moveCoins_inv hm).contracts a)) t adm k h1 ht
  | inst sender admin codeId m funds id kk adm2 w1 s fs hk hadm hnew hm hx =>
    have h1 : t ≠ c.addrOf w.next := by rintro rfl; rw [hnew] at ht; cases ht
    exact keep _ (fun a ha => (setContract_ne _ _ ha).trans (congrFun (moveCoins_inv hm).contracts a)) t adm k h1 ht
  | migrate sender _ _ _ kk me s _ _ hc =>
    by_cases h1 : t = me
    · subst h1
      rw [hc] at ht
      cases ht
      refine ⟨_, id, fun s2 hs2 => .inr ?_, fun hk => ?_⟩
      · subst hs2; cases kk <;> simp [World.setState, migrateState]
      · subst hk; cases kk <;> simp [World.setState, migrateState]
    · exact keep me (fun a ha => setContract_ne _ _ ha) t adm k h1 ht
  | admin sender _ _ _ adm2 me s _ hc _ =>
    by_cases h1 : t = me
    · subst h1
      rw [hc] at ht
      cases ht
      exact ⟨adm2, fun e => (by cases e),
        fun s2 hs2 => .inl ⟨s2, by rw [← hs2]; exact setContract_self _ _ _, hrefl s2⟩,
        fun hk => by rw [← hk]; exact setContract_self _ _ _⟩
    · exact keep me (fun a ha => setContract_ne _ _ ha) t adm k h1 ht
  | replyPair me _ _ admin s s' r hc hx | replyFactory me _ _ admin s s' r hc hx =>
    by_cases h1 : t = me
    · subst h1
      rw [hc] at ht
      cases ht
      exact ⟨_, id, fun s2 hs2 => (by cases hs2), fun hk => by cases hk⟩
    · exact keep me (fun a ha => setContract_ne _ _ ha) t adm k h1 ht

/-- Native balances of an account that does not act never fall. -/
theorem bal_step {c : Chain} {adv : Adv} {n : Nat} {w w' : World} {f : Frame} {fs : List Frame}
    (h : StepI c adv n w f w' fs) {u : Addr} (hu : f.actor ≠ u) (d : Denom) : w.bal d u ≤ w'.bal d u := by
  have key : ∀ {v v' : World} {src dst : Addr} {coins : List Coin}, src ≠ u → Moved v v' src dst coins →
      v.bal d u ≤ v'.bal d u := by
    intro v v' src dst coins hs hm
    by_cases h1 : u = dst
    · subst h1
      rw [hm.dst_bal hs]; omega
    · rw [hm.others d u (Ne.symm hs) h1]
  cases h with
  | bank _ _ _ _ _ _ _ _ hm => exact key hu (moveCoins_inv hm)
  | token _ _ _ _ _ me _ _ _ _ _ _ hm | pair _ _ _ _ _ me _ _ _ _ _ _ hm | factory _ _ _ _ _ me _ _ _ _ _ _ hm
  | router _ _ _ _ _ me _ _ _ _ _ _ hm =>
    have h2 := key hu (moveCoins_inv hm)
    exact h2
  | other _ _ _ _ _ _ _ _ _ _ hm => exact key hu (moveCoins_inv hm)
  | inst _ _ _ _ _ _ _ _ _ _ _ _ _ _ hm =>
    have h2 := key hu (moveCoins_inv hm)
    exact h2
  | migrate | admin | replyPair | replyFactory | replyOther => exact le_refl _

end Halo
