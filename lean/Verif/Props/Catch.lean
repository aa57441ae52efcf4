import Verif.Lemmas.CatchL
import Verif.Props.Pool
import Verif.Props.Registry
/-! # C99: transactions of several messages, and contracts that catch errors -/

namespace Halo
open CatchL

variable {c : Chain}

namespace CatchL

theorem runs_iff {w w' : World} {u : Addr} {m : CosmosMsg} :
    Runs c w [.msg u (plain m)] w' ↔ ∃ adv gas, runTx c adv gas w u m = .ok w' := by
  constructor
  · intro h
    obtain ⟨adv, n, h⟩ := h.run
    refine ⟨adv, n, ?_⟩
    unfold runTx
    simp only [bind_eq_ok, pure_eq_ok, Prod.exists]
    exact ⟨0, w', h, rfl⟩
  · rintro ⟨adv, gas, h⟩
    obtain ⟨n, h⟩ := runTx_inv h
    exact of_run h

theorem tx_runs {w w' : World} {ms : List (Addr × CosmosMsg)} :
    (∃ A gas, runTxC c A gas w ms = .ok w') ↔ Runs c w (ms.map fun m => .msg m.1 (plain m.2)) w' := by
  constructor
  · rintro ⟨A, gas, h⟩
    obtain ⟨gs, ha, hr⟩ := sim h
    have := ha.plain fun x hx => by
      obtain ⟨m, _, rfl⟩ := List.mem_map.mp hx
      rfl
    rw [this, List.map_map] at hr
    exact hr
  · intro h
    obtain ⟨adv, n, h⟩ := h.run
    refine ⟨never adv, n, ?_⟩
    unfold runTxC
    rw [runC_never, List.map_map]
    show (run c adv n w (ms.map fun m => .msg m.1 (plain m.2))).map Prod.snd = _
    rw [h]; rfl

end CatchL

/-- **C99**, one message: whatever third-party contracts do with the errors of their messages, a transaction of one message ends in a state
in which it could end without any error being caught, and the other way round. -/
theorem C99_caught (w w' : World) (u : Addr) (m : CosmosMsg) :
    (∃ A gas, runTxC c A gas w [(u, m)] = .ok w') ↔ ∃ adv gas, runTx c adv gas w u m = .ok w' :=
  tx_runs.trans runs_iff

/-- **C99**, several messages: a transaction succeeds exactly if its first message can be a transaction of its own and then the others one. -/
theorem C99_bundle (w w' : World) (u : Addr) (m : CosmosMsg) (ms : List (Addr × CosmosMsg)) :
    (∃ A gas, runTxC c A gas w ((u, m) :: ms) = .ok w') ↔
      ∃ v, (∃ adv gas, runTx c adv gas w u m = .ok v) ∧ ∃ A gas, runTxC c A gas v ms = .ok w' := by
  rw [tx_runs]
  constructor
  · intro h
    obtain ⟨v, h1, h2⟩ := Runs.split (fs := [.msg u (plain m)]) h
    exact ⟨v, runs_iff.mp h1, tx_runs.mpr h2⟩
  · rintro ⟨v, h1, h2⟩
    exact (runs_iff.mpr h1).append (tx_runs.mp h2)

namespace CatchL

theorem Later.trans {u v w : World} (h : Later c u v) (h' : Later c v w) : Later c u w := by
  induction h' with
  | refl => exact h
  | step v w _ hs ih => exact .step _ _ _ ih hs

theorem tx_later {ms : List (Addr × CosmosMsg)} : ∀ {w w' : World}, (∀ m ∈ ms, c.IsUser m.1) →
    (∃ A gas, runTxC c A gas w ms = .ok w') → Later c w w' := by
  induction ms with
  | nil =>
    rintro w w' _ h
    rw [tx_runs] at h
    cases h
    exact .refl _
  | cons m t ih =>
    intro w w' hu h
    obtain ⟨v, ⟨adv, gas, h1⟩, h2⟩ := (C99_bundle w w' m.1 m.2 t).mp h
    exact Later.trans (.step _ _ _ (.refl _) (.tx adv gas w v m.1 m.2 (hu m (.head _)) h1)) (ih (fun x hx => hu x (.tail _ hx)) h2)

theorem step_later {w w' : World} (h : StepC c w w') : Later c w w' := by
  cases h with
  | tx A gas _ _ ms hu h => exact tx_later hu ⟨A, gas, h⟩
  | block _ b => exact .step _ _ _ (.refl _) (.block w b)
  | env _ b h => exact .step _ _ _ (.refl _) (.env w b h)

theorem chain_step {w w' : World} (h : ChainStep c w w') : StepC c w w' := by
  cases h with
  | tx adv gas _ _ u m hu h =>
    obtain ⟨A, gas, h⟩ := (C99_caught w w' u m).mpr ⟨adv, gas, h⟩
    exact .tx A gas w w' _ (fun x hx => by rw [List.mem_singleton] at hx; subst hx; exact hu) h
  | block _ b => exact .block w b
  | env _ b h => exact .env w b h

end CatchL

/-- **C99**, histories: with transactions of any number of messages and with errors caught anywhere, the chain can go from a state to another
exactly if it can by the histories of which everything else is proved. -/
theorem C99_later (w w' : World) : LaterC c w w' ↔ ∃ tr, Hist c w tr w' := by
  constructor
  · intro h
    refine Later.hist ?_
    induction h with
    | refl => exact .refl _
    | step v w _ hs ih => exact Later.trans ih (step_later hs)
  · rintro ⟨tr, h⟩
    replace h := h.later
    induction h with
    | refl => exact .refl _
    | step v w _ hs ih => exact .step _ _ _ ih (chain_step hs)

/-- **C99**, reachable states: they are the same. -/
theorem C99_reachable (w : World) : ReachableC c w ↔ Reachable c w := by
  constructor
  · intro h
    induction h with
    | genesis w h => exact .genesis w h
    | step w w' _ hs ih => exact ih.later (step_later hs)
  · intro h
    induction h with
    | genesis w h => exact .genesis w h
    | step w w' _ hs ih => exact .step _ _ ih (chain_step hs)

/-! ### A contract that tries again -/

namespace Demo

/-- A third-party contract. -/
def agent : Addr := chain.addrOf deployed.next

/-- One transaction: the user creates the contract, gives it 1000 units of token A and calls it. -/
def hire : List (Addr × CosmosMsg) :=
  [(user, .inst none 9 (.raw []) []), (user, .exec tA (.transfer agent 1000) []), (user, .exec agent (.burn 0) [])]

/-- Called, it tries to swap 5000 units, which it does not have; told that this failed, it swaps 1000. -/
def persistent (catches : Bool) : Agents where
  adv p := { act := fun n _ => match p, n with
               | [], 17 => .ok [plain (.exec tA (.send pAB 5000 (.swap none none (some user))) [])]
               | [16], 16 => .ok [plain (.exec tA (.send pAB 1000 (.swap none none (some user))) [])]
               | _, _ => .ok []
             query := idle.query }
  catches p n := catches && decide (p = []) && decide (n = 16)
  fails _ _ := false
  refuses _ _ := false

/-- If it catches the error, the transaction succeeds and the pair has 1000 units more; if it does not, the transaction fails. -/
example : ((val (runTxC chain (persistent true) 20 deployed hire)).map fun w => (siteAB.pool deployed, siteAB.pool w)) =
      some (⟨10000, 20000, 14142⟩, ⟨11000, 18187, 14142⟩) ∧
    isOk (runTxC chain (persistent false) 20 deployed hire) = false := by decide +kernel

/-- The same contract, asking for what it has; but the chain refuses the swap's first message, so that it asks again. -/
def thwarted : Agents := { persistent true with
  adv := fun p => { act := fun n _ => match p, n with
                      | [], 17 => .ok [plain (.exec tA (.send pAB 500 (.swap none none (some user))) [])]
                      | [16], 16 => .ok [plain (.exec tA (.send pAB 1000 (.swap none none (some user))) [])]
                      | _, _ => .ok []
                    query := idle.query }
  refuses := fun p n => decide (p = []) && decide (n = 16) }
example : ((val (runTxC chain thwarted 20 deployed hire)).map fun w => siteAB.pool w) = some ⟨11000, 18187, 14142⟩ := by decide +kernel
/-- If the chain refuses something of a user, the whole transaction fails. -/
example : isOk (runTxC chain { never idle with refuses := fun _ n => decide (n = 18) } 20 deployed
    [(user, .exec tA (.send pAB 1000 (.swap none none none)) [])]) = false ∧
    isOk (runTxC chain (never idle) 20 deployed [(user, .exec tA (.send pAB 1000 (.swap none none none)) [])]) = true := by decide +kernel

/-- What it did is, by the claim, a history of the simple machine. -/
example : ∃ w', LaterC chain deployed w' ∧ siteAB.pool w' = ⟨11000, 18187, 14142⟩ ∧ ∃ tr, Hist chain deployed tr w' := by
  have h : ((val (runTxC chain (persistent true) 20 deployed hire)).map fun w => siteAB.pool w) = some ⟨11000, 18187, 14142⟩ := by decide +kernel
  rw [Option.map_eq_some_iff] at h
  obtain ⟨w, h1, h2⟩ := h
  have hl : LaterC chain deployed w := .step _ _ _ (.refl _) (.tx (persistent true) 20 _ _ hire (by
    intro m hm
    simp only [hire, List.mem_cons, List.not_mem_nil, or_false] at hm
    rcases hm with rfl | rfl | rfl <;> exact isUser_user) (val_eq h1))
  exact ⟨w, hl, h2, (C99_later _ _).mp hl⟩

end Demo
end Halo
