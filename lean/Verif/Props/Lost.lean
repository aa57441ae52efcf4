import Verif.Lemmas.LostL
import Verif.Props.Restart
/-! # C115: LP tokens left in their own pair are lost, and keep the pool from ever being empty -/

namespace Halo
open _root_.Halo.Spec

namespace LostL

/-- What no step ends still holds at the end of the run. -/
theorem trace_stays {c : Chain} {adv : Adv} {Q : World → Prop}
    (hq : ∀ n w f w' fs, Q w → StepI c adv n w f w' fs → Q w') :
    ∀ {n n' : Nat} {w w' : World} {fs : List Frame}, run c adv n w fs = .ok (n', w') → (∃ e ∈ trace c adv n w fs, Q e.1) → Q w' := by
  intro n
  induction n with
  | zero =>
    rintro n' w w' fs h ⟨e, he, _⟩
    cases fs <;> simp [trace] at he
  | succ n ih =>
    rintro n' w w' fs h ⟨e, he, hQ⟩
    cases fs with
    | nil => simp [trace] at he
    | cons f fs =>
      obtain ⟨m, w1, fs1, hm, hs, hr⟩ := run_cons_inv h
      cases hm
      rw [trace_cons hs, List.mem_cons] at he
      rcases he with rfl | he
      · exact run_induct (P := fun v _ => Q v) (fun _ _ _ _ _ _ hp hs => hq _ _ _ _ _ hp hs) (hq _ _ _ _ _ hQ (step_inv hs)) hr
      · exact ih hr ⟨e, he, hQ⟩

/-- A contract that was foreign code at some moment of a history is so at its end. -/
theorem hist_other {c : Chain} {u v : World} {tr : List (World × Frame)} (h : Hist c u tr v) {a : Addr}
    (he : (∃ e ∈ tr, ∃ adm, e.1.contracts a = some ⟨adm, .other⟩) ∨ ∃ adm, u.contracts a = some ⟨adm, .other⟩) :
    ∃ adm, v.contracts a = some ⟨adm, .other⟩ := by
  have stay : ∀ adv, ∀ n w f w' fs, (∃ adm, w.contracts a = some ⟨adm, .other⟩) → StepI c adv n w f w' fs →
      ∃ adm, w'.contracts a = some ⟨adm, .other⟩ := by
    rintro adv n w f w' fs ⟨adm, h⟩ hs
    obtain ⟨adm', h', _⟩ := other_step hs h
    exact ⟨adm', h'⟩
  induction h with
  | refl =>
    rcases he with ⟨_, he, _⟩ | he
    · cases he
    · exact he
  | tx tr adv gas v w signer m h hu hx ih =>
    obtain ⟨n, hr⟩ := runTx_inv hx
    have on : (∃ adm, v.contracts a = some ⟨adm, .other⟩) → ∃ adm, w.contracts a = some ⟨adm, .other⟩ := fun hv =>
      run_induct (P := fun v _ => ∃ adm, v.contracts a = some ⟨adm, .other⟩)
        (fun _ _ _ _ _ _ hp hs => stay adv _ _ _ _ _ hp hs) hv hr
    rcases he with ⟨e, he, hQ⟩ | he
    · rcases List.mem_append.mp he with he | he
      · exact on (ih (.inl ⟨e, he, hQ⟩))
      · exact trace_stays (stay adv) hr ⟨e, he, hQ⟩
    · exact on (ih (.inr he))
  | block tr v b h ih => exact ih he
  | env tr v bank' h hb ih => exact ih he

section
variable {c : Chain} {a lt : Addr} {s : Pair.State}

/-- The pair at `a` keeps its LP tokens, or its code was replaced. -/
def Kept (c : Chain) (a : Addr) (s : Pair.State) (lt : Addr) (x : Nat) (v : World) (fs : List Frame) : Prop :=
  Mute c v fs ∧ TokensOk v ∧ (Lost c a s lt x v fs ∨ ∃ adm, v.contracts a = some ⟨adm, .other⟩)

theorem Kept.step (hl : c.Lawful) {adv : Adv} {n : Nat} {w w' : World} {f : Frame} {fs rest : List Frame} {x : Nat}
    (hlt : c.api.human s.liquidityToken = some lt) (h0 : s.assetInfos.1.toNormal c.api ≠ .ok (.token lt))
    (h1 : s.assetInfos.2.toNormal c.api ≠ .ok (.token lt)) (hi : Kept c a s lt x w (f :: rest))
    (h : StepI c adv n w f w' fs) : Kept c a s lt x w' (fs ++ rest) := by
  refine ⟨hi.1.step h, hi.2.1.step h, ?_⟩
  rcases hi.2.2 with h2 | ⟨adm, h2⟩
  · exact h2.step hl hlt h0 h1 hi.1 h
  · obtain ⟨adm', h', _⟩ := other_step h h2
    exact .inr ⟨adm', h'⟩

theorem Kept.start {v : World} {x : Nat} (hi : Kept c a s lt x v []) {signer : Addr} (hu : c.IsUser signer) (m : CosmosMsg) :
    Kept c a s lt x v [.msg signer (plain m)] := by
  refine ⟨hi.1.start hu m (hi.1.sane.start hu m), hi.2.1, ?_⟩
  rcases hi.2.2 with h | h
  · left
    obtain ⟨adm, ha⟩ := h.here
    obtain ⟨st, ht⟩ := h.tok
    obtain ⟨j, _, hj⟩ := hi.1.sane.at_addr _ _ ha
    obtain ⟨j', _, hj'⟩ := hi.1.sane.at_addr _ _ ht
    have na : signer ≠ a := fun e => hu.1 j (hj.symm.trans e.symm)
    have nl : signer ≠ lt := fun e => hu.1 j' (hj'.symm.trans e.symm)
    refine ⟨h.here, h.tok, ?_, ?_⟩
    · rw [owedAll_cons, owed_none (f := .msg signer (plain m)) na nl]
      exact h.le
    · intro f hf he
      simp only [List.mem_singleton] at hf
      subst hf
      exact absurd he na
  · exact .inr h

theorem Kept.later (hl : c.Lawful) {w w' : World} (hw : Reachable c w) (h : Later c w w') {x : Nat}
    (hlt : c.api.human s.liquidityToken = some lt) (h0 : s.assetInfos.1.toNormal c.api ≠ .ok (.token lt))
    (h1 : s.assetInfos.2.toNormal c.api ≠ .ok (.token lt)) (hi : Kept c a s lt x w []) : Kept c a s lt x w' [] := by
  induction h with
  | refl => exact hi
  | step v v' hlat hs ih =>
    have hv' := (hw.later hlat).step _ _ hs
    cases hs with
    | tx adv gas _ _ signer m hu hx =>
      obtain ⟨n, hr⟩ := runTx_inv hx
      exact run_induct (c := c) (adv := adv) (P := fun v fs => Kept c a s lt x v fs)
        (fun _ _ _ _ _ _ hp hs => hp.step hl hlt h0 h1 hs) (ih.start hu m) hr
    | block _ b =>
      refine ⟨hv'.mute, hv'.tokensOk, ?_⟩
      rcases ih.2.2 with h | h
      · exact .inl ⟨h.here, h.tok, h.le, by simp⟩
      · exact .inr h
    | env _ bank' hb =>
      refine ⟨hv'.mute, hv'.tokensOk, ?_⟩
      rcases ih.2.2 with h | h
      · exact .inl ⟨h.here, h.tok, h.le, by simp⟩
      · exact .inr h

theorem Kept.here (hl : c.Lawful) {w : World} (hw : Reachable c w) {adm : Option Addr} (ha : w.contracts a = some ⟨adm, .pair s⟩)
    (hlt : c.api.human s.liquidityToken = some lt) (ht : Honest w (.token lt)) : Kept c a s lt (held w (.token lt) a) w [] := by
  refine ⟨hw.mute, hw.tokensOk, .inl ⟨⟨adm, ha⟩, ?_, Nat.le_refl _, by simp⟩⟩
  rcases C29_pair_is_minter hl hw ha hlt with ⟨st, h, _⟩ | h
  · exact ⟨st, h⟩
  · obtain ⟨_, _, h3⟩ := ht lt rfl
    rw [h] at h3; cases h3

end

theorem held_le_supply' {w : World} (hw : TokensOk w) (t b : Addr) : held w (.token t) b ≤ supplyAt w t := by
  simp only [held, supplyAt]
  split
  · next h => exact (hw _ _ _ h).le_supply b
  · exact Nat.le_refl _

end LostL

open LostL

/-- **C115.** LP tokens that a pair holds of itself never leave it, whoever does whatever and even if its assets are hostile: withdrawals
burn only what was sent for the purpose. Only replacing the pair's code could free them. -/
theorem C115_lp_in_pair_is_lost {c : Chain} (hc : c.Lawful) {w w' : World} (hw : Reachable c w) (hl : Later c w w') {a lt : Addr}
    {adm : Option Addr} {s : Pair.State} (ha : w.contracts a = some ⟨adm, .pair s⟩) (hlt : c.api.human s.liquidityToken = some lt)
    (ht : Honest w (.token lt)) (h0 : s.assetInfos.1.toNormal c.api ≠ .ok (.token lt))
    (h1 : s.assetInfos.2.toNormal c.api ≠ .ok (.token lt)) :
    (∃ adm, w'.contracts a = some ⟨adm, .other⟩) ∨ held w (.token lt) a ≤ held w' (.token lt) a := by
  rcases ((Kept.here hc hw ha hlt ht).later hc hw hl hlt h0 h1).2.2 with h | h
  · exact .inr (by have := h.le; omega)
  · exact .inl h

/-- **C115.** So the LP supply never falls below them. -/
theorem C115_supply_stays {c : Chain} (hc : c.Lawful) {w w' : World} (hw : Reachable c w) (hl : Later c w w') {a lt : Addr}
    {adm : Option Addr} {s : Pair.State} (ha : w.contracts a = some ⟨adm, .pair s⟩) (hlt : c.api.human s.liquidityToken = some lt)
    (ht : Honest w (.token lt)) (h0 : s.assetInfos.1.toNormal c.api ≠ .ok (.token lt))
    (h1 : s.assetInfos.2.toNormal c.api ≠ .ok (.token lt)) :
    (∃ adm, w'.contracts a = some ⟨adm, .other⟩) ∨ held w (.token lt) a ≤ supplyAt w' lt := by
  rcases C115_lp_in_pair_is_lost hc hw hl ha hlt ht h0 h1 with h | h
  · exact .inl h
  · exact .inr (h.trans (held_le_supply' (hw.later hl).tokensOk _ _))

/-- **C115.** And with one of them there is never again a first deposit, not even in the middle of a transaction: no minimum, no
whitelist, and no pool to be had for nothing (C111). -/
theorem C115_never_first {c : Chain} (hc : c.Lawful) {w w' : World} (hw : Reachable c w) {tr : List (World × Frame)}
    (hl : Hist c w tr w') {k : PairSite} (hk : k.Sound c w) (hpos : 0 < held w (.token k.lt) k.a) :
    (∃ adm, w'.contracts k.a = some ⟨adm, .other⟩) ∨ ∀ e ∈ k.calls c tr, ¬ First e := by
  by_contra hcon
  simp only [not_or, not_forall] at hcon
  obtain ⟨hno, ⟨b, l⟩, he, hf⟩ := hcon
  obtain ⟨e, hetr, hcall⟩ := List.mem_filterMap.mp he
  have h0 : k.s.assetInfos.1.toNormal c.api ≠ .ok (.token k.lt) := by rw [hk.info0]; exact fun e => hk.lp0 (Except.ok.inj e)
  have h1 : k.s.assetInfos.2.toNormal c.api ≠ .ok (.token k.lt) := by rw [hk.info1]; exact fun e => hk.lp1 (Except.ok.inj e)
  have hbase := Kept.here hc hw hk.pair hk.lp hk.token
  obtain ⟨rest, hP⟩ := hl.all (P := fun v fs => Kept c k.a k.s k.lt (held w (.token k.lt) k.a) v fs)
    (fun v hv _ => hbase.later hc hw hv hk.lp h0 h1) (fun v signer m hp hu => hp.start hu m)
    (fun adv n v f v' fs rest hp hs => hp.step hc hk.lp h0 h1 hs) e hetr
  rcases hP.2.2 with h | h
  · have hb := PairSite.callOf_pool hcall
    have hf := not_not.mp hf
    cases l with
    | deposit x y =>
      simp only at hb
      subst hb
      have h2 : supplyAt e.1 k.lt = 0 := hf
      have h3 := held_le_supply' hP.2.1 k.lt k.a
      have h4 := h.le
      omega
    | _ => exact hf
  · exact hno (hist_other hl (.inl ⟨e, hetr, h⟩))

/-- **C115.** Some liquidity is therefore permanent: with `x` LP tokens of `T` in the pair, `reserve0 * reserve1 * T ^ 2` is at least
`r0 * r1 * x ^ 2` ever after — a constant-product pool with the share `x / T` of today's reserves never goes away — as long as there is
no dust swap. -/
theorem C115_permanent_liquidity {c : Chain} (hc : c.Lawful) {w w' : World} (hw : Reachable c w) {tr : List (World × Frame)}
    (hl : Hist c w tr w') {k : PairSite} (hk : k.Sound c w) (hd : ∀ e ∈ k.calls c tr, ¬ Dust e) :
    k.Broken w' ∨ held w k.i0 k.a * held w k.i1 k.a * held w (.token k.lt) k.a ^ 2 ≤
      held w' k.i0 k.a * held w' k.i1 k.a * supplyAt w k.lt ^ 2 := by
  rcases Nat.eq_zero_or_pos (held w (.token k.lt) k.a) with e | hpos
  · exact .inr (by rw [e]; simp)
  rcases C115_never_first hc hw hl hk hpos with h | hf
  · exact .inl (.inl h)
  have h0 : k.s.assetInfos.1.toNormal c.api ≠ .ok (.token k.lt) := by rw [hk.info0]; exact fun e => hk.lp0 (Except.ok.inj e)
  have h1 : k.s.assetInfos.2.toNormal c.api ≠ .ok (.token k.lt) := by rw [hk.info1]; exact fun e => hk.lp1 (Except.ok.inj e)
  rcases C115_supply_stays hc hw hl.later hk.pair hk.lp hk.token h0 h1 with h | hs
  · exact .inl (.inl h)
  rcases C52_only_dust_lowers_value hc hw hl hk hf hd with h | h
  · exact .inl h
  · exact .inr ((Nat.mul_le_mul_left _ (Nat.pow_le_pow_left hs 2)).trans h)

/-- **C115.** In particular when at most `10 ^ 18` units of each asset exist. -/
theorem C115_permanent_liquidity_18 {c : Chain} (hc : c.Lawful) {w w' : World} (hw : Reachable c w) {tr : List (World × Frame)}
    (hl : Hist c w tr w') {k : PairSite} (hk : k.Sound c w) (a0 : AtMost18 w tr k.i0) (a1 : AtMost18 w tr k.i1) :
    k.Broken w' ∨ held w k.i0 k.a * held w k.i1 k.a * held w (.token k.lt) k.a ^ 2 ≤
      held w' k.i0 k.a * held w' k.i1 k.a * supplyAt w k.lt ^ 2 := by
  rcases Nat.eq_zero_or_pos (held w (.token k.lt) k.a) with e | hpos
  · exact .inr (by rw [e]; simp)
  rcases C115_never_first hc hw hl hk hpos with h | hf
  · exact .inl (.inl h)
  have h0 : k.s.assetInfos.1.toNormal c.api ≠ .ok (.token k.lt) := by rw [hk.info0]; exact fun e => hk.lp0 (Except.ok.inj e)
  have h1 : k.s.assetInfos.2.toNormal c.api ≠ .ok (.token k.lt) := by rw [hk.info1]; exact fun e => hk.lp1 (Except.ok.inj e)
  rcases C115_supply_stays hc hw hl.later hk.pair hk.lp hk.token h0 h1 with h | hs
  · exact .inl (.inl h)
  rcases C22_share_value_partial hc hw hl hk a0 a1 hf with h | h
  · exact .inl h
  · exact .inr ((Nat.mul_le_mul_left _ (Nat.pow_le_pow_left hs 2)).trans h)

namespace Demo

/-- 5000 of the 14142 LP tokens are sent to the pair. -/
def mislaid : World := worldOf (runs [.exec lpAB (.transfer pAB 5000) []] allowed)
private theorem mislaid_run : runs [.exec lpAB (.transfer pAB 5000) []] allowed = .ok mislaid := worldOf_eq (by decide +kernel)
private theorem mislaid_reachable : Reachable chain mislaid := allowed_reachable.later (later_runs mislaid_run)
private theorem sound_mislaid : siteAB.Sound chain mislaid :=
  sound_of (k := siteAB) (x := tA) (y := tB) (by decide +kernel) ⟨rfl, rfl, rfl⟩ rfl rfl (by decide +kernel) (by decide +kernel)

/-- Everybody else withdraws all they have; then a newcomer deposits. -/
def leaving : List CosmosMsg :=
  [.exec tA (.send pAB 1000 (.swap none none none)) [], .exec lpAB (.send pAB 9142 .withdrawLiquidity) [],
   .exec pAB (.provideLiquidity (⟨.token tA, 2000⟩, ⟨.token tB, 4000⟩) none none) []]
def deserted : World := worldOf (runs leaving mislaid)
private theorem deserted_run : runs leaving mislaid = .ok deserted := worldOf_eq (by decide +kernel)

example : held mislaid (.token lpAB) pAB = 5000 ∧ held mislaid (.token lpAB) user = 9142 ∧ held deserted (.token lpAB) pAB = 5000 := by
  decide +kernel
example := C115_lp_in_pair_is_lost lawful mislaid_reachable (later_runs deserted_run) sound_mislaid.pair sound_mislaid.lp sound_mislaid.token
  (by decide +kernel) (by decide +kernel)
example := C115_never_first lawful mislaid_reachable (hist_runs deserted_run) sound_mislaid (by decide +kernel)
private theorem leaving_calls : siteAB.calls chain (traces leaving mislaid) =
    [(⟨10000, 20000, 14142⟩, .swap0 1000), (⟨11000, 18187, 14142⟩, .withdraw 9142), (⟨3890, 6431, 5000⟩, .deposit 2000 4000)] := by decide +kernel
example := C115_permanent_liquidity lawful mislaid_reachable (hist_runs deserted_run) sound_mislaid
  (by rw [leaving_calls]; simp [Dust])
example := C115_permanent_liquidity_18 lawful mislaid_reachable (hist_runs deserted_run) sound_mislaid
  (atMost_of (by decide +kernel)) (atMost_of (by decide +kernel))
/-- The deposit was not a first one, and the stray tokens keep their part. -/
example : (siteAB.calls chain (traces leaving mislaid)).length = 3 ∧ siteAB.pool deserted ≠ siteAB.pool mislaid ∧
    held deserted (.token tA) pAB ≠ 0 := by decide +kernel

end Demo
end Halo
