import Verif.Lemmas.FactoryL
import Verif.Lemmas.DemoRun
/-! # Events inside an execution (helper lemmas) -/

namespace Halo

/-- While the frames run, at some point a frame with property `E` (of the world at that point and the frame) is
executed successfully. -/
inductive Occurs (c : Chain) (adv : Adv) (E : World → Frame → Prop) : Nat → World → List Frame → Prop where
  | here (n : Nat) (w w' : World) (f : Frame) (fs fs' : List Frame) (h : E w f)
      (hs : step c adv n w f = .ok (w', fs')) : Occurs c adv E (n + 1) w (f :: fs)
  | later (n : Nat) (w w' : World) (f : Frame) (fs fs' : List Frame) (hs : step c adv n w f = .ok (w', fs'))
      (h : Occurs c adv E n w' (fs' ++ fs)) : Occurs c adv E (n + 1) w (f :: fs)

/-- An invariant that only `E` can break holds at the end, or `E` occurred. -/
theorem occurs_or {c : Chain} {adv : Adv} {E : World → Frame → Prop} {P : World → List Frame → Prop}
    (hstep : ∀ n w f w' fs rest, P w (f :: rest) → ¬ E w f → StepI c adv n w f w' fs → P w' (fs ++ rest)) :
    ∀ {n n' : Nat} {w w' : World} {fs : List Frame}, P w fs → run c adv n w fs = .ok (n', w') →
      Occurs c adv E n w fs ∨ P w' [] := by
  intro n
  induction n with
  | zero =>
    intro n' w w' fs hp h
    cases fs with
    | nil => cases h; exact .inr hp
    | cons f fs => cases h
  | succ n ih =>
    intro n' w w' fs hp h
    cases fs with
    | nil => cases h; exact .inr hp
    | cons f fs =>
      obtain ⟨m, w1, fs1, he, hs, hr⟩ := run_cons_inv h
      cases he
      by_cases hE : E w f
      · exact .inl (.here _ _ _ _ _ _ hE hs)
      · rcases ih (hstep _ _ _ _ _ _ hp hE (step_inv hs)) hr with ho | hp'
        · exact .inl (.later _ _ _ _ _ _ hs ho)
        · exact .inr hp'

/-- How a step changes a halo token: not at all, it becomes foreign code, or by one of its messages. -/
theorem tok_step {c : Chain} {adv : Adv} {n : Nat} {w w' : World} {f : Frame} {fs : List Frame}
    (h : StepI c adv n w f w' fs) {t : Addr} {adm : Option Addr} {s : TokenState}
    (ht : w.contracts t = some ⟨adm, .token s⟩) :
    (∃ adm', w'.contracts t = some ⟨adm', .token s⟩ ∧ (adm' = adm ∨ Readmin c t adm f)) ∨
      w'.contracts t = some ⟨adm, .other⟩ ∨
    ∃ sender target m funds id s' r, f = .msg sender ⟨.exec target m funds, id⟩ ∧ c.api.resolve target = .ok t ∧
      Token.Eff c.api w.block s sender m s' r ∧ w'.contracts t = some ⟨adm, .token s'⟩ ∧
      fs = frames t r ++ replyFrame sender id none ∧ (∀ a, a ≠ t → w'.contracts a = w.contracts a) := by
  have keep : w'.contracts t = some ⟨adm, .token s⟩ →
      ∃ adm', w'.contracts t = some ⟨adm', .token s⟩ ∧ (adm' = adm ∨ Readmin c t adm f) := fun e => ⟨_, e, .inl rfl⟩
  cases h with
  | bank _ _ _ _ _ _ _ _ hmv => exact .inl (keep (by rw [(moveCoins_inv hmv).contracts]; exact ht))
  | other _ _ _ _ _ _ _ _ _ _ hmv => exact .inl (keep (by rw [(moveCoins_inv hmv).contracts]; exact ht))
  | replyOther => exact .inl (keep ht)
  | token sender target m funds id me w1 admin s1 s' r hme hmv hr hc hx =>
    by_cases h1 : t = me
    · subst h1
      rw [ht] at hc
      cases hc
      exact .inr (.inr ⟨sender, target, m, funds, id, s', r, rfl, hme, Token.execute_inv hx, setContract_self _ _ _, rfl,
        fun a ha => (setContract_ne _ _ ha).trans (congrFun (moveCoins_inv hmv).contracts a)⟩)
    · exact .inl (keep (((setContract_ne _ _ h1).trans (congrFun (moveCoins_inv hmv).contracts t)).trans ht))
  | pair _ _ _ _ _ me w1 admin s1 s' r _ hmv _ hc _ | factory _ _ _ _ _ me w1 admin s1 s' r _ hmv _ hc _
  | router _ _ _ _ _ me w1 admin s1 s' r _ hmv _ hc _ =>
    have h1 : t ≠ me := by rintro rfl; rw [ht] at hc; cases hc
    exact .inl (keep (((setContract_ne _ _ h1).trans (congrFun (moveCoins_inv hmv).contracts t)).trans ht))
  | inst sender admin codeId m funds id kk adm2 w1 s1 fs1 hk hadm hnew hmv hx =>
    have h1 : t ≠ c.addrOf w.next := by rintro rfl; rw [ht] at hnew; cases hnew
    exact .inl (keep (((setContract_ne _ _ h1).trans (congrFun (moveCoins_inv hmv).contracts t)).trans ht))
  | migrate sender target codeId id k me s1 hk hres hc =>
    by_cases h1 : t = me
    · subst h1
      rw [ht] at hc
      cases hc
      refine .inr (.inl ?_)
      have : migrateState k (.token s) = .other := by cases k <;> rfl
      simp [World.setState, this]
    · exact .inl (keep ((setContract_ne _ _ h1).trans ht))
  | admin sender target new id adm2 me s1 hres hc _ =>
    by_cases h1 : t = me
    · subst h1
      rw [ht] at hc
      cases hc
      exact .inl ⟨adm2, setContract_self _ _ _, .inr ⟨sender, target, new, id, rfl, hres, rfl⟩⟩
    · exact .inl (keep ((setContract_ne _ _ h1).trans ht))
  | replyPair me _ _ admin s1 s' r hc hx | replyFactory me _ _ admin s1 s' r hc hx =>
    have h1 : t ≠ me := by rintro rfl; rw [ht] at hc; cases hc
    exact .inl (keep ((setContract_ne _ _ h1).trans ht))

/-- The stack of a new transaction is sane. -/
theorem Sane.start {c : Chain} {w : World} (hi : Sane c w []) {signer : Addr} (hu : c.IsUser signer) (m : CosmosMsg) :
    Sane c w [.msg signer (plain m)] := by
  refine ⟨hi.at_addr, by simpa [Frame.actor] using .inl hu, ?_, ?_, hi.addr, hi.silent⟩
  · intro a adm s hp g hg ha
    simp only [List.mem_singleton] at hg
    subst hg
    obtain ⟨k, _, hk⟩ := hi.at_addr _ _ hp
    exact absurd (hk.symm.trans ha.symm) (hu.1 k)
  · intro a adm s hp
    rcases hi.linked a adm s hp with h | ⟨g, hg, _⟩
    · exact .inl h
    · cases hg

/-- No reply to `a` is outstanding. -/
def Settled (a : Addr) (fs : List Frame) : Prop := ∀ f ∈ fs, f.actor = a → ∃ m, f = .msg a (plain m)

theorem Settled.start {c : Chain} {w : World} {a signer : Addr} {k : Contract} (hw : ContractsAt c w)
    (hu : c.IsUser signer) (ha : w.contracts a = some k) (m : CosmosMsg) : Settled a [.msg signer (plain m)] := by
  intro f hf hfa
  simp only [List.mem_singleton] at hf
  subst hf
  obtain ⟨k, _, hk⟩ := hw _ _ ha
  exact absurd (hk.symm.trans hfa.symm) (hu.1 k)

/-- A settled pair stays as it is, or is migrated to foreign code by its admin. -/
theorem Settled.step {c : Chain} {adv : Adv} {n : Nat} {w w' : World} {f : Frame} {fs rest : List Frame} {a : Addr}
    {adm : Option Addr} {s : Pair.State} (hs : Settled a (f :: rest)) (ha : w.contracts a = some ⟨adm, .pair s⟩)
    (h : StepI c adv n w f w' fs) :
    (∃ adm', w'.contracts a = some ⟨adm', .pair s⟩ ∧ (adm' = adm ∨ Readmin c a adm f) ∧ Settled a (fs ++ rest)) ∨
      w'.contracts a = some ⟨adm, .other⟩ ∧
        ∃ sender target codeId id k, f = .msg sender ⟨.migrate target codeId, id⟩ ∧ c.api.resolve target = .ok a ∧
          adm = some sender ∧ c.codes codeId = some k ∧ k ≠ .pair := by
  refine (pair_fwd h ha (fun e => ?_)).imp (fun ⟨adm', h1, h2⟩ => ⟨adm', h1, h2, fun g hg hga => ?_⟩) id
  · obtain ⟨m, rfl⟩ := hs f (by simp) e
    exact ⟨_, rfl⟩
  · rcases List.mem_append.mp hg with hg | hg
    · obtain ⟨m, hm, _⟩ := pair_frames_out h ha (hs f (by simp)) g hg hga
      exact ⟨m, hm⟩
    · exact hs g (by simp [hg]) hga

/-- Whoever acts in a sane execution of a lawful chain acts under an address in normal form. -/
theorem Sane.actor_eq {c : Chain} (hl : c.Lawful) {w : World} {f : Frame} {fs : List Frame} (hi : Sane c w fs)
    (hf : f ∈ fs) {b : Bytes} {o : Addr} (hc : c.api.canon f.actor = some b) (ho : c.api.human b = some o) :
    f.actor = o := by
  rcases hi.actors f hf with hu | hk
  · obtain ⟨_, b', h1, h2⟩ := validate_eq_ok.mp hu.2
    rw [hc] at h1
    cases h1
    rw [ho] at h2
    exact (Option.some.inj h2).symm
  · cases hk2 : w.contracts f.actor with
    | none => rw [hk2] at hk; cases hk
    | some k =>
      obtain ⟨n, _, hn⟩ := hi.at_addr _ _ hk2
      obtain ⟨b', h1, h2⟩ := hl.addr_valid n
      rw [hn] at hc ⊢
      rw [hc] at h1
      cases h1
      rw [ho] at h2
      exact (Option.some.inj h2).symm

theorem Demo.lawful : Demo.chain.Lawful where
  canon_human b s h := by
    simp only [Demo.chain, Demo.api, Option.some.injEq] at h ⊢
    exact h.symm
  addr_valid n := ⟨_, rfl, rfl⟩
  addr_inj m n h := by
    have := congrArg List.length h
    simpa [Demo.chain] using this

/-- In a lawful chain a generated address is in normal form. -/
theorem Chain.Lawful.human_canon {c : Chain} (hl : c.Lawful) {n : Nat} {b : Bytes}
    (h : c.api.canon (c.addrOf n) = some b) : c.api.human b = some (c.addrOf n) := by
  obtain ⟨b', h1, h2⟩ := hl.addr_valid n
  rw [h] at h1
  cases h1
  exact h2

theorem Chain.IsUser.human_canon {c : Chain} {u : Addr} (hu : c.IsUser u) {b : Bytes}
    (h : c.api.canon u = some b) : c.api.human b = some u := by
  obtain ⟨_, b', h1, h2⟩ := validate_eq_ok.mp hu.2
  rw [h] at h1
  cases h1
  exact h2

theorem resolve_eq_ok {api : Api} {s : Str} {a : Addr} :
    api.resolve s = .ok a ↔ ∃ b, api.canon s = some b ∧ api.human b = some a := by
  unfold Api.resolve
  simp only [bind_eq_ok, canonicalize_eq_ok, humanize_eq_ok]

theorem Chain.Lawful.resolve_addr {c : Chain} (hl : c.Lawful) (n : Nat) :
    c.api.resolve (c.addrOf n) = .ok (c.addrOf n) := by
  obtain ⟨b', h1, h2⟩ := hl.addr_valid n
  exact resolve_eq_ok.mpr ⟨b', h1, h2⟩

end Halo
