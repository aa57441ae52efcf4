import Verif.Lemmas.CatchLogL
import Verif.Props.Catch
import Verif.Props.Close
/-! # C99: what is recorded of transactions of several messages with caught errors -/

namespace Halo
open CatchL

variable {c : Chain}

namespace CatchL

theorem does_iff {w w' : World} {u : Addr} {m : CosmosMsg} {r : Record} :
    Does c w [.msg u (plain m)] w' r ↔ ∃ adv gas, runTx c adv gas w u m = .ok w' ∧
      r = ⟨trace c adv gas w [.msg u (plain m)], log c adv gas w [.msg u (plain m)]⟩ := by
  constructor
  · intro h
    obtain ⟨adv, n, hr, rfl⟩ := h.run
    refine ⟨adv, n, ?_, rfl⟩
    unfold runTx
    simp only [bind_eq_ok, pure_eq_ok, Prod.exists]
    exact ⟨0, w', hr, rfl⟩
  · rintro ⟨adv, gas, h, rfl⟩
    obtain ⟨n, h⟩ := runTx_inv h
    exact does_of_run h

theorem tx_does {w w' : World} {ms : List (Addr × CosmosMsg)} {r : Record} :
    (∃ A gas, recTxC c A gas w ms = .ok (w', r)) ↔ Does c w (ms.map fun m => .msg m.1 (plain m.2)) w' r := by
  constructor
  · rintro ⟨A, gas, h⟩
    obtain ⟨gs, ha, hr⟩ := does h
    have := ha.plain fun x hx => by
      obtain ⟨m, _, rfl⟩ := List.mem_map.mp hx
      rfl
    rw [this, List.map_map] at hr
    exact hr
  · intro h
    obtain ⟨adv, n, hr, rfl⟩ := h.run
    refine ⟨never adv, n, ?_⟩
    unfold recTxC
    have e : (ms.map fun m => (Frame.msg m.1 (plain m.2), false)).map Prod.fst = ms.map fun m => .msg m.1 (plain m.2) := by
      rw [List.map_map]; rfl
    rw [recC_never (n' := 0) (w' := w') (by rw [e]; exact hr), e]

end CatchL

/-- **C99**, the record: keeping it changes nothing. -/
theorem C99_machine (A : Agents) (gas : Nat) (w : World) (ms : List (Addr × CosmosMsg)) :
    (recTxC c A gas w ms).map Prod.fst = runTxC c A gas w ms := recC_fst

/-- **C99**, one message: whatever errors are caught, what a transaction of one message executes, announces and leads to is what some
transaction without caught errors executes, announces and leads to, and the other way round. -/
theorem C99_recorded (w w' : World) (u : Addr) (m : CosmosMsg) (tr : List (World × Frame)) (es : List (Addr × Event)) :
    (∃ A gas, recTxC c A gas w [(u, m)] = .ok (w', ⟨tr, es⟩)) ↔
      ∃ adv gas, runTx c adv gas w u m = .ok w' ∧ tr = trace c adv gas w [.msg u (plain m)] ∧ es = log c adv gas w [.msg u (plain m)] := by
  refine tx_does.trans (does_iff.trans ?_)
  simp only [Record.mk.injEq]

namespace CatchL

theorem tx_logged {ms : List (Addr × CosmosMsg)} : ∀ {u w w' : World} {tr : List (World × Frame)} {es : List (Addr × Event)} {r : Record},
    (∀ m ∈ ms, c.IsUser m.1) → Logged c u tr es w → Does c w (ms.map fun m => .msg m.1 (plain m.2)) w' r →
    Logged c u (tr ++ r.steps) (es ++ r.events) w' := by
  induction ms with
  | nil =>
    intro u w w' tr es r _ hl h
    cases h
    simpa using hl
  | cons m t ih =>
    intro u w w' tr es r hu hl h
    obtain ⟨v, r1, r2, rfl, h1, h2⟩ := Does.split (fs := [.msg m.1 (plain m.2)]) h
    obtain ⟨adv, gas, hx, rfl⟩ := does_iff.mp h1
    have := ih (fun x hx => hu x (.tail _ hx)) (.tx tr es adv gas _ _ m.1 m.2 hl (hu m (.head _)) hx) h2
    simpa [Record.and, List.append_assoc] using this

end CatchL

/-- **C99**, histories with their record: with transactions of any number of messages and with errors caught anywhere, what can be executed
and announced on the way from a state to another is what can be in the histories of which everything else is proved. -/
theorem C99_logged (u v : World) (tr : List (World × Frame)) (es : List (Addr × Event)) : LoggedC c u tr es v ↔ Logged c u tr es v := by
  constructor
  · intro h
    induction h with
    | refl => exact .refl
    | tx tr es A gas v w ms r _ hu hx ih => exact tx_logged hu ih (tx_does.mp ⟨A, gas, hx⟩)
    | block tr es v b _ ih => exact .block _ _ _ b ih
    | env tr es v b _ hb ih => exact .env _ _ _ b ih hb
  · intro h
    induction h with
    | refl => exact .refl
    | tx tr es adv gas v w s m _ hu hx ih =>
      obtain ⟨A, g, h⟩ := (C99_recorded v w s m _ _).mpr ⟨adv, gas, hx, rfl, rfl⟩
      exact .tx tr es A g v w [(s, m)] ⟨_, _⟩ ih (fun x hm => by rw [List.mem_singleton] at hm; subst hm; exact hu) h
    | block tr es v b _ ih => exact .block _ _ _ b ih
    | env tr es v b _ hb ih => exact .env _ _ _ b ih hb

/-! ### The contract that tries again: nothing is recorded of the attempt that failed -/

namespace Demo

/-- Of the two swaps it sends only the one of 1000 units is announced, and the pair was given 1000 units. -/
example : ((val (recTxC chain (persistent true) 20 deployed hire)).map fun x => (x.2.events, x.2.steps.length)) =
    some ([(pAB, .swap agent user (.token tA) (.token tB) 1000 1813 182 5)], 6) := by decide +kernel

end Demo
end Halo
