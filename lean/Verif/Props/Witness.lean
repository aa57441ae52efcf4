import Verif.Props.ExactTx
import Verif.Props.Exact
import Verif.Props.Events
import Verif.Props.Desk
import Verif.Props.Cw20
import Verif.Props.Queries
import Verif.Props.Create
import Verif.Props.Tokens
import Verif.Props.Admins
import Verif.Props.Impact
import Verif.Props.Sweep
import Verif.Props.Created
/-! # Theorems applied to the history of the demo, whose hypotheses were so far only shown to be possible in another form -/

namespace Halo.Demo
open _root_.Halo.Spec

/-- The token stored at an address. -/
def tokState (w : World) (a : Addr) : TokenState := ((tokenAt w a).getD (none, token none [] [])).2

theorem tokState_eq {w : World} {a : Addr} (h : ((tokenAt w a).map fun p => p.1.isNone) = some true) :
    w.contracts a = some ⟨none, .token (tokState w a)⟩ := by
  unfold tokState
  cases hk : tokenAt w a with
  | none => rw [hk] at h; cases h
  | some p =>
    have := tokenAt_eq hk
    rw [hk] at h
    obtain ⟨adm, st⟩ := p
    cases adm with
    | none => exact this
    | some => cases h

theorem facAt_deployed : deployed.contracts fac = some ⟨none, .factory (facState deployed fac)⟩ := facState_eq (by decide +kernel)
theorem facAt_gapped : gapped.contracts fac = some ⟨none, .factory (facState gapped fac)⟩ := facState_eq (by decide +kernel)
theorem tokAt_A : deployed.contracts tA = some ⟨none, .token (tokState deployed tA)⟩ := tokState_eq (by decide +kernel)
theorem tokAt_A' : traded.contracts tA = some ⟨none, .token (tokState traded tA)⟩ := tokState_eq (by decide +kernel)
theorem tokAt_lp : deployed.contracts lpAB = some ⟨none, .token (tokState deployed lpAB)⟩ := tokState_eq (by decide +kernel)
theorem mint_A : (tokState deployed tA).mint = some ⟨user, some 90000⟩ := by decide +kernel

example := C28_balances_sum_to_supply deployed_reachable tokAt_lp
example := C28_balance_le_supply deployed_reachable tokAt_lp
example := C29_pair_is_minter lawful deployed_reachable sound_AB.pair (lt := lpAB) rfl
example := C30_only_own_money deployed_reachable isUser_user2 (by decide) swapDone_run
example := C31_tokens_valid deployed_reachable tokAt_A
example := C31_cap_forever deployed_reachable (later_runs traded_run) tokAt_A mint_A rfl tokAt_A'
example := C38_one_entry_per_key deployed_reachable facAt_deployed
example := fun e => C38_entries_stay deployed_reachable (later_runs gapped_run) facAt_deployed facAt_gapped (e := e)
example := C38_never_shrinks deployed_reachable (later_runs gapped_run) facAt_deployed facAt_gapped
example := C64_has_owner lawful deployed_reachable facAt_deployed
example := C63_queries lawful deployed_reachable tokAt_A (q 0 0 0)
example := C66_pair_info lawful deployed_reachable sound_AB
example := C66_unknown_asset lawful deployed_reachable sound_AB (i := .token tC) (by decide) (by decide) (q 0 0 0) 1000
example := C72_stays (later_runs traded_run) tokAt_A
example := C72_frozen (later_runs traded_run) tokAt_A
example := C58_quotes lawful deployed_reachable (deployed_reachable.later (later_runs traded_run)) sound_AB (sound_of (k := siteAB) (x := tA) (y := tB) (by decide +kernel) ⟨rfl, rfl, rfl⟩ rfl rfl (by decide +kernel) (by decide +kernel))
  (i := .token tA) (j := .token tB) (.inl ⟨rfl, rfl⟩) (by decide +kernel) (by decide +kernel) (q := q 0 0 0) (q' := q 0 0 0)
  (x := 1000) (by decide) (quote := ⟨1813, 182, 5⟩) (quote' := ⟨1506, 143, 4⟩) (val_eq (by decide +kernel)) (val_eq (by decide +kernel))

/-- The first page of the registry, and the one after the first entry. -/
example : ∃ p1, Factory.queryPairs api (facState deployed fac) none (some 1) = .ok p1 ∧ p1.length = 1 := by
  have h : (val (Factory.queryPairs api (facState deployed fac) none (some 1))).isSome = true := by decide +kernel
  obtain ⟨p1, h⟩ := Option.isSome_iff_exists.mp h
  refine ⟨p1, val_eq h, ?_⟩
  rw [C43_first_page (val_eq h)]
  decide +kernel

end Halo.Demo
