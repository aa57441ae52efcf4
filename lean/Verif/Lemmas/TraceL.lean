import Verif.Lemmas.OccursL
/-! # What was executed: traces of executions and histories -/

namespace Halo

/-- The frames executed by `run`, in order, each with the world right before it. -/
def trace (c : Chain) (adv : Adv) : Nat → World → List Frame → List (World × Frame)
  | _, _, [] => []
  | 0, _, _ :: _ => []
  | n + 1, w, f :: fs =>
    (w, f) :: match step c adv n w f with
      | .ok (w', fs') => trace c adv n w' (fs' ++ fs)
      | .error _ => []

/-- A history from `u` in which exactly the frames `tr` were executed. -/
inductive Hist (c : Chain) (u : World) : List (World × Frame) → World → Prop where
  | refl : Hist c u [] u
  | tx (tr : List (World × Frame)) (adv : Adv) (gas : Nat) (v w : World) (signer : Addr) (m : CosmosMsg)
      (h : Hist c u tr v) (hu : c.IsUser signer) (hx : runTx c adv gas v signer m = .ok w) :
      Hist c u (tr ++ trace c adv gas v [.msg signer (plain m)]) w
  | block (tr : List (World × Frame)) (v : World) (b : Block) (h : Hist c u tr v) : Hist c u tr { v with block := b }
  | env (tr : List (World × Frame)) (v : World) (bank' : Denom → AMap Addr Nat) (h : Hist c u tr v)
      (hb : ∀ d n, (v.bank d).getD0 (c.addrOf n) ≤ (bank' d).getD0 (c.addrOf n)) :
      Hist c u tr { v with bank := bank' }

theorem Hist.later {c : Chain} {u v : World} {tr : List (World × Frame)} (h : Hist c u tr v) : Later c u v := by
  induction h with
  | refl => exact .refl _
  | tx tr adv gas v w signer m h hu hx ih => exact .step _ _ _ ih (.tx adv gas _ _ signer m hu hx)
  | block tr v b h ih => exact .step _ _ _ ih (.block _ b)
  | env tr v bank' h hb ih => exact .step _ _ _ ih (.env _ bank' hb)

/-- Every history has a trace. -/
theorem Later.hist {c : Chain} {u v : World} (h : Later c u v) : ∃ tr, Hist c u tr v := by
  induction h with
  | refl => exact ⟨_, .refl⟩
  | step u v h hs ih =>
    obtain ⟨tr, ih⟩ := ih
    cases hs with
    | tx adv gas _ _ signer m hu hx => exact ⟨_, .tx tr adv gas _ _ signer m ih hu hx⟩
    | block _ b => exact ⟨_, .block tr _ b ih⟩
    | env _ bank' hb => exact ⟨_, .env tr _ bank' ih hb⟩

theorem trace_nil (c : Chain) (adv : Adv) (n : Nat) (w : World) : trace c adv n w [] = [] := by
  cases n <;> rfl

theorem trace_cons {c : Chain} {adv : Adv} {n : Nat} {w w' : World} {f : Frame} {fs fs' : List Frame}
    (h : step c adv n w f = .ok (w', fs')) :
    trace c adv (n + 1) w (f :: fs) = (w, f) :: trace c adv n w' (fs' ++ fs) := by
  simp only [trace, h]

theorem trace_append {c : Chain} {adv : Adv} : ∀ {n n' : Nat} {w w' : World} {fs gs : List Frame},
    run c adv n w fs = .ok (n', w') → trace c adv n w (fs ++ gs) = trace c adv n w fs ++ trace c adv n' w' gs := by
  intro n
  induction n with
  | zero =>
    intro n' w w' fs gs h
    cases fs with
    | nil => cases h; rw [trace_nil]; rfl
    | cons => cases h
  | succ n ih =>
    intro n' w w' fs gs h
    cases fs with
    | nil => cases h; rw [trace_nil]; rfl
    | cons f fs =>
      obtain ⟨m, w1, fs1, he, hs, hr⟩ := run_cons_inv h
      cases he
      rw [List.cons_append, trace_cons hs, trace_cons hs, ← List.append_assoc, ih hr, List.cons_append]

/-- Something that holds in every machine state holds in every state of the trace. -/
theorem trace_all {c : Chain} {adv : Adv} {P : World → List Frame → Prop}
    (hstep : ∀ n w f w' fs rest, P w (f :: rest) → StepI c adv n w f w' fs → P w' (fs ++ rest)) :
    ∀ {n : Nat} {w : World} {fs : List Frame}, P w fs →
      ∀ e ∈ trace c adv n w fs, ∃ rest, P e.1 (e.2 :: rest) := by
  intro n
  induction n with
  | zero =>
    intro w fs _ e he
    cases fs <;> simp [trace] at he
  | succ n ih =>
    intro w fs hp e he
    cases fs with
    | nil => simp [trace] at he
    | cons f fs =>
      simp only [trace, List.mem_cons] at he
      rcases he with rfl | he
      · exact ⟨fs, hp⟩
      · cases hs : step c adv n w f with
        | error => rw [hs] at he; cases he
        | ok p =>
          obtain ⟨w1, fs1⟩ := p
          rw [hs] at he
          exact ih (hstep _ _ _ _ _ _ hp (step_inv hs)) e he

/-- Some transaction of a user, started in a reachable state, comes to `f` in state `v`. -/
def Happens (c : Chain) (v : World) (f : Frame) : Prop :=
  ∃ w signer m adv gas, Reachable c w ∧ c.IsUser signer ∧ (v, f) ∈ trace c adv gas w [.msg signer (plain m)]

/-- What a user signs happens. -/
theorem Happens.start {c : Chain} {w : World} (hw : Reachable c w) {u : Addr} (hu : c.IsUser u) (m : CosmosMsg) (adv : Adv) :
    Happens c w (.msg u (plain m)) :=
  ⟨w, u, m, adv, 1, hw, hu, by simp [trace]⟩

/-- Invariants hold whenever something happens. -/
theorem Happens.all {c : Chain} {v : World} {f : Frame} (h : Happens c v f) {P : World → List Frame → Prop}
    (hstart : ∀ w signer m, Reachable c w → c.IsUser signer → P w [.msg signer (plain m)])
    (hstep : ∀ adv n w f w' fs rest, P w (f :: rest) → StepI c adv n w f w' fs → P w' (fs ++ rest)) :
    ∃ rest, P v (f :: rest) := by
  obtain ⟨w, signer, m, adv, gas, hw, hu, hm⟩ := h
  exact trace_all (fun n w f w' fs rest => hstep adv n w f w' fs rest) (hstart w signer m hw hu) _ hm

/-- The same over a history. -/
theorem Hist.all {c : Chain} {u v : World} {tr : List (World × Frame)} (h : Hist c u tr v)
    {P : World → List Frame → Prop} (h0 : ∀ w, Later c u w → Later c w v → P w [])
    (hstart : ∀ w signer m, P w [] → c.IsUser signer → P w [.msg signer (plain m)])
    (hstep : ∀ adv n w f w' fs rest, P w (f :: rest) → StepI c adv n w f w' fs → P w' (fs ++ rest)) :
    ∀ e ∈ tr, ∃ rest, P e.1 (e.2 :: rest) := by
  induction h with
  | refl => intro e he; cases he
  | tx tr adv gas v w signer m h hu hx ih =>
    intro e he
    have hs : ChainStep c v w := .tx adv gas _ _ signer m hu hx
    rcases List.mem_append.mp he with he | he
    · exact ih (fun y h1 h2 => h0 y h1 (.step _ _ _ h2 hs)) e he
    · exact trace_all (hstep adv) (hstart v signer m (h0 v h.later (.step _ _ _ (.refl _) hs)) hu) e he
  | block tr v b h ih => exact ih (fun y h1 h2 => h0 y h1 (.step _ _ _ h2 (.block _ b)))
  | env tr v bank' h hb ih => exact ih (fun y h1 h2 => h0 y h1 (.step _ _ _ h2 (.env _ bank' hb)))

namespace Demo

/-- The frames executed by `runs`. -/
def traces : List CosmosMsg → World → List (World × Frame)
  | [], _ => []
  | m :: t, w =>
    trace chain idle 20 w [.msg user (plain m)] ++
      match runTx chain idle 20 w user m with
      | .ok v => traces t v
      | .error _ => []

theorem hist_runs {l : List CosmosMsg} : ∀ {w w' : World}, runs l w = .ok w' → Hist chain w (traces l w) w' := by
  suffices h : ∀ {u w w' : World} {tr : List (World × Frame)}, Hist chain u tr w → runs l w = .ok w' →
      Hist chain u (tr ++ traces l w) w' from fun {_ _} hr => h .refl hr
  induction l with
  | nil => intro u w w' tr hu h; cases h; rw [traces, List.append_nil]; exact hu
  | cons m t ih =>
    intro u w w' tr hu h
    simp only [runs, bind_eq_ok] at h
    obtain ⟨v, h1, h2⟩ := h
    have := ih (.tx _ idle 20 w v user m hu isUser_user h1) h2
    simp only [traces, h1]
    rw [← List.append_assoc]
    exact this

end Demo
end Halo
