import Verif.Lemmas.RouterCoinsL
import Verif.Props.Router
/-! # Stray money is locked (C61) -/

namespace Halo
open _root_.Halo.Spec

/-- **C61.** Whatever a contract holds of an asset that it may not spend never becomes less, whatever anyone does, as long
as neither the contract nor the asset is migrated to foreign code. -/
theorem C61_stray_money_is_locked {c : Chain} (hc : c.Lawful) {w w' : World} (hw : Reachable c w) (h : Later c w w')
    {a : Addr} {adm adm' : Option Addr} {k k' : CState} (ha : w.contracts a = some ⟨adm, k⟩)
    (ha' : w'.contracts a = some ⟨adm', k'⟩) (hk' : k' ≠ .other) {i : AssetInfo} (hi : Honest w i) (hi' : Honest w' i)
    (hns : ¬ CanSpend c k i) : held w i a ≤ held w' i a := by
  have hk : Alike k k := by
    cases k with
    | token t => exact ⟨t, rfl⟩
    | pair s => exact rfl
    | factory s => exact ⟨s, rfl⟩
    | router s => exact (hns (by cases i <;> trivial)).elim
    | other => exact (hns (by cases i <;> trivial)).elim
  rcases Keeps.later hc hw h hns ⟨⟨adm, k, ha, hk⟩, hi, le_refl _, fun _ hf => by cases hf⟩ with h | ⟨_, h⟩ | ⟨t, _, rfl, h⟩
  · exact h.le
  · rw [ha'] at h
    cases h
    exact (hk' rfl).elim
  · obtain ⟨_, _, h'⟩ := hi' t rfl
    rw [h'] at h
    cases h

/-- **C61.** In particular for the native coins a factory was given to register decimals: no message gets them back. -/
theorem C61_factory_coins {c : Chain} (hc : c.Lawful) {w w' : World} (hw : Reachable c w) (h : Later c w w')
    {f : Addr} {adm adm' : Option Addr} {s s' : Factory.State} (ha : w.contracts f = some ⟨adm, .factory s⟩)
    (ha' : w'.contracts f = some ⟨adm', .factory s'⟩) (d : Denom) : (w.bank d).getD0 f ≤ (w'.bank d).getD0 f :=
  C61_stray_money_is_locked hc hw h ha ha' (by simp) (i := .native d) (fun _ h => by cases h) (fun _ h => by cases h)
    (fun h => h)

/-- **C61.** In particular for anything in a pair that is neither one of its two assets nor its LP token. -/
theorem C61_stray_money_in_pair {c : Chain} (hc : c.Lawful) {w w' : World} (hw : Reachable c w) (h : Later c w w')
    {k : PairSite} (hx : k.Ctx c) {adm adm' : Option Addr} (hk : w.contracts k.a = some ⟨adm, .pair k.s⟩) {k' : CState}
    (hk' : w'.contracts k.a = some ⟨adm', k'⟩) (ho : k' ≠ .other) {i : AssetInfo} (hi : Honest w i) (hi' : Honest w' i)
    (h0 : i ≠ k.i0) (h1 : i ≠ k.i1) (h2 : i ≠ .token k.lt) : held w i k.a ≤ held w' i k.a := by
  refine C61_stray_money_is_locked hc hw h hk hk' ho hi hi' ?_
  have n0 := hx.info0
  have n1 := hx.info1
  cases i with
  | native d =>
    rintro (e | e)
    · rw [e] at n0
      exact h0 (Except.ok.inj n0)
    · rw [e] at n1
      exact h1 (Except.ok.inj n1)
  | token t =>
    rintro ⟨b, e | e | e, hb⟩
    · rw [e] at n0
      simp only [AssetInfoRaw.toNormal, bind_eq_ok, humanize_eq_ok, pure_eq_ok, hb] at n0
      obtain ⟨_, e1, e⟩ := n0
      cases e1
      exact h0 e
    · rw [e] at n1
      simp only [AssetInfoRaw.toNormal, bind_eq_ok, humanize_eq_ok, pure_eq_ok, hb] at n1
      obtain ⟨_, e1, e⟩ := n1
      cases e1
      exact h1 e
    · have n2 := hx.lp
      rw [e, hb] at n2
      cases n2
      exact h2 rfl

/-- **C61.** Native coins leave a router only when it hands them to foreign code with a swap request (which no pair
understands): that is in the trace of every history in which its balance fell. -/
theorem C61_router_coins {c : Chain} {w w' : World} (hw : Reachable c w) {tr : List (World × Frame)} (h : Hist c w tr w')
    {a : Addr} {adm adm' : Option Addr} {s s' : Router.State} (ha : w.contracts a = some ⟨adm, .router s⟩)
    (ha' : w'.contracts a = some ⟨adm', .router s'⟩) {d : Denom} (hlt : held w' (.native d) a < held w (.native d) a) :
    ∃ e ∈ tr, ∃ p me bp ms dst funds oadm,
      e.2 = .msg a (plain (.exec p (.swapDirect bp ms dst) funds)) ∧ (∃ k ∈ funds, k.denom = d) ∧
      c.api.resolve p = .ok me ∧ e.1.contracts me = some ⟨oadm, .other⟩ := by
  by_contra hno
  rcases RKeeps.hist hw h (a := a) (d := d) (fun e he hh => hno ⟨e, he, hh⟩) ⟨⟨_, _, ha⟩, le_refl _, by simp⟩ with hk | ⟨_, hg⟩
  · exact absurd hk.le (Nat.not_le.mpr hlt)
  · rw [ha'] at hg
    cases hg

/-! ## The hypotheses can be met -/

namespace Demo

/-- Someone gives the factory 7 "u", the pair AB 5 "u" and 30 C, and the token A 20 of itself. -/
def stray : List CosmosMsg :=
  [.bankSend fac [⟨[117], 7⟩], .bankSend pAB [⟨[117], 5⟩], .exec tC (.transfer pAB 30) [], .exec tA (.transfer tA 20) []]
def strayed : World := worldOf (runs stray deployed)
theorem stray_run : runs stray deployed = .ok strayed := worldOf_eq (by decide +kernel)
theorem strayed_reachable : Reachable chain strayed := deployed_reachable.later (later_runs stray_run)

/-- Later the owner registers "u", and someone trades. -/
def busy : List CosmosMsg :=
  [.exec fac (.addNativeTokenDecimals [117] 6) [], .exec tA (.send pAB 1000 (.swap none none (some user2))) []]
def busied : World := worldOf (runs busy strayed)
theorem busy_run : runs busy strayed = .ok busied := worldOf_eq (by decide +kernel)

example : held strayed (.native [117]) fac = 7 ∧ held strayed (.native [117]) pAB = 5 ∧
    held strayed (.token tC) pAB = 30 ∧ held strayed (.token tA) tA = 20 := by decide +kernel

example : held strayed (.native [117]) fac ≤ held busied (.native [117]) fac :=
  C61_factory_coins lawful strayed_reachable (later_runs busy_run) (facState_eq (a := fac) (by decide +kernel))
    (facState_eq (a := fac) (by decide +kernel)) [117]

example : held strayed (.token tC) pAB ≤ held busied (.token tC) pAB :=
  C61_stray_money_in_pair lawful strayed_reachable (later_runs busy_run) (k := siteAB) (sound_AB.ctx lawful)
    (pairAt_eq (p := (some fac, siteAB.s)) (by decide +kernel)) (pairAt_eq (p := (some fac, siteAB.s)) (by decide +kernel))
    (by simp) (honest_token (by decide +kernel)) (honest_token (by decide +kernel)) (by decide +kernel) (by decide +kernel)
    (by decide +kernel)

example : held strayed (.token tA) tA ≤ held busied (.token tA) tA := by
  obtain ⟨p, hp⟩ := Option.isSome_iff_exists.mp (show (tokenAt strayed tA).isSome = true by decide +kernel)
  obtain ⟨p', hp'⟩ := Option.isSome_iff_exists.mp (show (tokenAt busied tA).isSome = true by decide +kernel)
  exact C61_stray_money_is_locked lawful strayed_reachable (later_runs busy_run) (tokenAt_eq hp) (tokenAt_eq hp') (by simp)
    (honest_token (by decide +kernel)) (honest_token (by decide +kernel)) (fun h => h)

/-- The owner creates a pair of "u" and A and migrates it to foreign code; someone gives the router 5 "u". -/
def swapOut : List CosmosMsg :=
  [.bankSend fac [⟨[117], 1⟩], .exec fac (.addNativeTokenDecimals [117] 6) [],
   .exec fac (.createPair (.native [117], .token tA) ⟨[user], 10, 10⟩) [],
   .exec fac (.migratePair (chain.addrOf 9) (some 9)) [], .bankSend rou [⟨[117], 5⟩]]
def swapped_out : World := worldOf (runs swapOut deployed)
theorem swapOut_run : runs swapOut deployed = .ok swapped_out := worldOf_eq (by decide +kernel)

/-- The coins leave the router. -/
def looting : List CosmosMsg := [.exec rou (.executeSwapOperations [⟨.native [117], .token tA⟩] none none) []]
def looted : World := worldOf (runs looting swapped_out)
theorem looting_run : runs looting swapped_out = .ok looted := worldOf_eq (by decide +kernel)

example := C61_router_coins (deployed_reachable.later (later_runs swapOut_run)) (hist_runs looting_run)
  (rouAt_eq (a := rou) (p := (none, ⟨fac⟩)) (by decide +kernel)) (rouAt_eq (p := (none, ⟨fac⟩)) (by decide +kernel))
  (d := [117]) (by decide +kernel)

end Demo
end Halo
