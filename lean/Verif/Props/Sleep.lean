import Verif.Props.Approve
import Verif.Props.Cycle
import Verif.Props.Provider
/-! # C117: what one who does nothing can lose -/

namespace Halo
open _root_.Halo.Spec
open ApproveL

/-- The value of what `U` holds at the given prices: of the tokens `ts`, and of the pools of the pairs `ks` (the share of the two reserves
that the LP tokens stand for). -/
def worthOf (price : AssetInfo → Nat) (ts : List Addr) (ks : List PairSite) (U : Addr) (v : World) : ℚ :=
  (ts.map fun t => (price (.token t) * held v (.token t) U : ℚ)).sum +
  (ks.map fun k => (held v (.token k.lt) U : ℚ) / supplyAt v k.lt *
    (price k.i0 * held v k.i0 k.a + price k.i1 * held v k.i1 k.a)).sum

/-- `U` has let nobody but contracts of the project spend the token `t`. -/
def Careful (w : World) (U t : Addr) : Prop :=
  ∃ adm s, w.contracts t = some ⟨adm, .token s⟩ ∧ ∀ sp, allowanceOf s U sp ≠ 0 → House w sp

/-- `U` has let `a` spend some of the token `t`. -/
def Allows (w : World) (U t a : Addr) : Prop := ∃ adm s, w.contracts t = some ⟨adm, .token s⟩ ∧ allowanceOf s U a ≠ 0

namespace SleepL

theorem none_granted {c : Chain} {t U : Addr} {tr : List (World × Frame)} (hU : ∀ e ∈ tr, e.2.actor ≠ U) :
    ∀ e ∈ tr, ∀ sp, ¬ GrantsTo c t U sp e.2 := by
  intro e he sp h
  have := hU e he
  obtain ⟨v, f⟩ := e
  unfold GrantsTo at h
  split at h
  · rename_i hf
    dsimp only at hf this
    rw [hf] at this
    exact this h.1
  · exact h

theorem no_cost {c : Chain} {t U : Addr} {tr : List (World × Frame)} (hU : ∀ e ∈ tr, e.2.actor ≠ U) :
    (tr.map (cost c U t)).sum = 0 :=
  List.sum_eq_zero fun x hx => by
    obtain ⟨e, he, rfl⟩ := List.mem_map.mp hx
    exact cost_other (hU e he)

theorem share_worth {r0 r1 T r0' r1' T' P0 P1 : Nat} (h : r0 * r1 * T' ^ 2 ≤ r0' * r1' * T ^ 2) (hp : P0 * r0 = P1 * r1) :
    (P0 * r0 + P1 * r1) * T' ≤ (P0 * r0' + P1 * r1') * T := by
  have := value_least (p := P0) (q := P1) (a := r0 * T') (b := r1 * T') (a' := r0' * T) (b' := r1' * T)
    (by rw [← Nat.mul_assoc, ← Nat.mul_assoc, hp]) (by calc
      r0 * T' * (r1 * T') = r0 * r1 * T' ^ 2 := by ring
      _ ≤ r0' * r1' * T ^ 2 := h
      _ = r0' * T * (r1' * T) := by ring)
  calc (P0 * r0 + P1 * r1) * T' = P0 * (r0 * T') + P1 * (r1 * T') := by ring
    _ ≤ P0 * (r0' * T) + P1 * (r1' * T) := this
    _ = _ := by ring

end SleepL

open SleepL

/-- **C117.** Who signs nothing has all their tokens at every moment, even in the middle of a transaction: nobody borrows them for a while,
though they may have let the project's contracts spend them. -/
theorem C117_every_moment {c : Chain} (hc : c.Lawful) {w w' : World} (hw : Reachable c w) {tr : List (World × Frame)}
    (hl : Hist c w tr w') {t U : Addr} (hU : ∀ e ∈ tr, e.2.actor ≠ U) (hs : Careful w U t) :
    ∀ e ∈ tr, (∃ a adm, e.1.contracts a = some ⟨adm, .other⟩ ∧ (a = t ∨ Allows w U t a)) ∨
      held w (.token t) U ≤ held e.1 (.token t) U := by
  intro e he
  obtain ⟨adm, s, ht, h0⟩ := hs
  have hg : Gave (fun sp => allowanceOf s U sp ≠ 0) t U w s := ⟨⟨adm, ht⟩, fun sp h => ⟨h, h0 sp h⟩⟩
  rcases hg.hist_all hc hw hl (fun e he sp h => absurd h (none_granted hU e he sp)) e he with ⟨a, adm', ha, h⟩ | ⟨s', ⟨⟨adm', ht'⟩, _⟩, h⟩
  · exact .inl ⟨a, adm', ha, h.imp (fun h => h) fun h => ⟨adm, s, ht, h⟩⟩
  · rw [no_cost hU] at h
    rw [held_token ht, held_token ht']
    exact .inr h

/-- **C117.** Somebody who signs nothing and has let nobody but the project's contracts spend the LP tokens they hold keeps the pair from
ever running out of LP tokens, even in the middle of a transaction: there is no first deposit. -/
theorem C117_never_first {c : Chain} (hc : c.Lawful) {w w' : World} (hw : Reachable c w) {tr : List (World × Frame)}
    (hl : Hist c w tr w') {k : PairSite} {U : Addr} (hU : ∀ e ∈ tr, e.2.actor ≠ U) (hs : Careful w U k.lt)
    (hpos : 0 < held w (.token k.lt) U) :
    (∃ a adm, w'.contracts a = some ⟨adm, .other⟩ ∧ (a = k.lt ∨ Allows w U k.lt a)) ∨ ∀ e ∈ k.calls c tr, ¬ First e := by
  by_contra hcon
  simp only [not_or, not_forall] at hcon
  obtain ⟨hno, ⟨b, l⟩, he, hf⟩ := hcon
  obtain ⟨e, hetr, hcall⟩ := List.mem_filterMap.mp he
  obtain ⟨rest, hT⟩ := hl.all (P := fun v _ => TokensOk v) (fun v hv _ => (hw.later hv).tokensOk) (fun v signer m hp hu => hp)
    (fun adv n v f v' fs rest hp hs => hp.step hs) e hetr
  rcases C117_every_moment hc hw hl hU hs e hetr with ⟨a, adm, ha, h⟩ | h
  · obtain ⟨adm2, h2⟩ := LostL.hist_other hl (.inl ⟨e, hetr, adm, ha⟩)
    exact hno ⟨a, adm2, h2, h⟩
  · have hb := PairSite.callOf_pool hcall
    have hf := not_not.mp hf
    cases l with
    | deposit x y =>
      simp only at hb
      subst hb
      have h2 : supplyAt e.1 k.lt = 0 := hf
      have h3 := LostL.held_le_supply' hT k.lt U
      omega
    | _ => exact hf

/-- **C117.** Somebody who signs nothing never becomes poorer, whatever all the others do: at the prices at which the two reserves of each
of the pairs are worth the same at the beginning, their tokens and their shares of the pools together are worth at the end at least what
they were worth then. They may have let the project's contracts spend all of it. Excepted are swaps that leak (C01, C94), and replaced
code: of one of the pairs or their assets, of one of the tokens, or of a contract that may spend them. -/
theorem C117_sleep {c : Chain} (hc : c.Lawful) {w w' : World} (hw : Reachable c w) {tr : List (World × Frame)}
    (hl : Hist c w tr w') {ts : List Addr} {ks : List PairSite} {U : Addr} (hU : ∀ e ∈ tr, e.2.actor ≠ U)
    (hs : ∀ t ∈ ts ++ ks.map PairSite.lt, Careful w U t) (hk : ∀ k ∈ ks, k.Sound c w)
    (hn : ∀ k ∈ ks, ∀ e ∈ k.calls c tr, ¬ Leak e) (price : AssetInfo → Nat)
    (hp : ∀ k ∈ ks, price k.i0 * held w k.i0 k.a = price k.i1 * held w k.i1 k.a) :
    (∃ t ∈ ts ++ ks.map PairSite.lt, ∃ a adm, w'.contracts a = some ⟨adm, .other⟩ ∧ (a = t ∨ Allows w U t a)) ∨
    (∃ k ∈ ks, k.Broken w') ∨ worthOf price ts ks U w ≤ worthOf price ts ks U w' := by
  by_cases hb : ∃ t ∈ ts ++ ks.map PairSite.lt, ∃ a adm, w'.contracts a = some ⟨adm, .other⟩ ∧ (a = t ∨ Allows w U t a)
  · exact .inl hb
  by_cases hb' : ∃ k ∈ ks, k.Broken w'
  · exact .inr (.inl hb')
  refine .inr (.inr ?_)
  have keep : ∀ t ∈ ts ++ ks.map PairSite.lt, held w (.token t) U ≤ held w' (.token t) U := by
    intro t ht
    obtain ⟨adm, s, h1, h2⟩ := hs t ht
    rcases C116_approvals_lie_safe hc hw hl h1 h2 hU with ⟨a, adm', ha, h⟩ | h
    · exact absurd ⟨t, ht, a, adm', ha, h.imp (fun h => h) fun h => ⟨adm, s, h1, h⟩⟩ hb
    · exact h
  refine add_le_add (List.sum_le_sum fun t ht => ?_) (List.sum_le_sum fun k hk' => ?_)
  · have := keep t (by simp [ht])
    exact mul_le_mul_of_nonneg_left (by exact_mod_cast this) (by positivity)
  · have hmem : k.lt ∈ ts ++ ks.map PairSite.lt := List.mem_append_right _ (List.mem_map_of_mem hk')
    have hle := keep _ hmem
    have nn : ∀ v, (0 : ℚ) ≤ price k.i0 * held v k.i0 k.a + price k.i1 * held v k.i1 k.a := fun v =>
      add_nonneg (mul_nonneg (Nat.cast_nonneg _) (Nat.cast_nonneg _)) (mul_nonneg (Nat.cast_nonneg _) (Nat.cast_nonneg _))
    rcases Nat.eq_zero_or_pos (held w (.token k.lt) U) with e0 | hpos
    · rw [e0]
      simp only [Nat.cast_zero, zero_div, zero_mul]
      exact mul_nonneg (div_nonneg (Nat.cast_nonneg _) (Nat.cast_nonneg _)) (nn w')
    have hf : ∀ e ∈ k.calls c tr, ¬ First e := by
      rcases C117_never_first hc hw hl (k := k) hU (hs _ hmem) hpos with ⟨a, adm, ha, h⟩ | h
      · exact absurd ⟨k.lt, hmem, a, adm, ha, h⟩ hb
      · exact h
    have hv := (C22_no_leak_partial hc hw hl (hk k hk') hf (hn k hk')).resolve_left fun h => hb' ⟨k, hk', h⟩
    have hT := LostL.held_le_supply' hw.tokensOk k.lt U
    have hT' := LostL.held_le_supply' (hw.later hl.later).tokensOk k.lt U
    simp only [PairSite.pool] at hv
    have hV := share_worth hv (hp k hk')
    have t0 : (0 : ℚ) < supplyAt w k.lt := by exact_mod_cast (by omega : 0 < supplyAt w k.lt)
    have t1 : (0 : ℚ) < supplyAt w' k.lt := by exact_mod_cast (by omega : 0 < supplyAt w' k.lt)
    have hVq : ((price k.i0 * held w k.i0 k.a + price k.i1 * held w k.i1 k.a : ℚ)) * supplyAt w' k.lt ≤
        (price k.i0 * held w' k.i0 k.a + price k.i1 * held w' k.i1 k.a) * supplyAt w k.lt := by exact_mod_cast hV
    have hq : ((price k.i0 * held w k.i0 k.a + price k.i1 * held w k.i1 k.a : ℚ)) / supplyAt w k.lt ≤
        (price k.i0 * held w' k.i0 k.a + price k.i1 * held w' k.i1 k.a) / supplyAt w' k.lt := (div_le_div_iff₀ t0 t1).mpr hVq
    calc (held w (.token k.lt) U : ℚ) / supplyAt w k.lt * (price k.i0 * held w k.i0 k.a + price k.i1 * held w k.i1 k.a)
        = held w (.token k.lt) U * ((price k.i0 * held w k.i0 k.a + price k.i1 * held w k.i1 k.a) / supplyAt w k.lt) := by ring
      _ ≤ held w' (.token k.lt) U * ((price k.i0 * held w' k.i0 k.a + price k.i1 * held w' k.i1 k.a) / supplyAt w' k.lt) :=
          mul_le_mul (by exact_mod_cast hle) hq (div_nonneg (nn w) t0.le) (Nat.cast_nonneg _)
      _ = _ := by ring

namespace Demo

/-- `user` gives `user2` LP tokens of one pair and tokens. -/
def presents : List CosmosMsg := [.exec lpAB (.transfer user2 1000) [], .exec tB (.transfer user2 400) []]
def presented : World := worldOf (runs presents triangle)
theorem presented_run : runs presents triangle = .ok presented := worldOf_eq (by decide +kernel)
/-- `user2` lets the pair spend both. -/
def bedtime : World := worldOf (runTx chain idle 20 presented user2 (.exec tB (.increaseAllowance pAB 400 none) []))
theorem bedtime_run : runTx chain idle 20 presented user2 (.exec tB (.increaseAllowance pAB 400 none) []) = .ok bedtime :=
  worldOf_eq (by decide +kernel)
def night : World := worldOf (runTx chain idle 20 bedtime user2 (.exec lpAB (.increaseAllowance pAB 1000 none) []))
theorem night_run : runTx chain idle 20 bedtime user2 (.exec lpAB (.increaseAllowance pAB 1000 none) []) = .ok night :=
  worldOf_eq (by decide +kernel)
theorem night_reachable : Reachable chain night := by
  have h1 := triangle_reachable.later (later_runs presented_run)
  have h2 := h1.step _ _ (.tx idle 20 _ _ user2 _ isUser_user2 bedtime_run)
  exact h2.step _ _ (.tx idle 20 _ _ user2 _ isUser_user2 night_run)

/-- In the night `user` trades in a circle, deposits and withdraws. -/
def nightly : List CosmosMsg :=
  [approve tA pAB, approve tB pAB, roundMsg, .exec pAB (.provideLiquidity (⟨.token tA, 500⟩, ⟨.token tB, 1000⟩) none none) [],
   .exec lpAB (.send pAB 3000 .withdrawLiquidity) []]
def morning : World := worldOf (runs nightly night)
theorem morning_run : runs nightly night = .ok morning := worldOf_eq (by decide +kernel)
theorem asleep : ∀ e ∈ traces nightly night, e.2.actor ≠ user2 := by
  have h : (traces nightly night).all (fun e => e.2.actor != user2) = true := by decide +kernel
  exact fun e he => by simpa using List.all_eq_true.mp h e he

theorem careful_of {w : World} {U t : Addr} (h : (match w.contracts t with
    | some ⟨_, .token s⟩ => s.allowances.all (fun e => e.1.1 != U || isHouse w e.1.2)
    | _ => false) = true) : Careful w U t := by
  split at h
  · rename_i adm s e
    exact ⟨adm, s, e, gave_of h⟩
  · cases h

private theorem careful_night : ∀ t ∈ [tB] ++ [siteAB].map PairSite.lt, Careful night user2 t := by
  intro t ht
  simp only [List.map_cons, List.map_nil, List.singleton_append, List.mem_cons, List.not_mem_nil, or_false] at ht
  rcases ht with rfl | rfl
  · exact careful_of (by decide +kernel)
  · exact careful_of (by decide +kernel)

theorem sound_night : siteAB.Sound chain night :=
  sound_of (k := siteAB) (x := tA) (y := tB) (by decide +kernel) ⟨rfl, rfl, rfl⟩ rfl rfl (by decide +kernel) (by decide +kernel)

theorem nightly_calls : siteAB.calls chain (traces nightly night) =
    [(⟨10000, 20000, 14142⟩, .swap0 1000), (⟨11000, 18187, 14142⟩, .deposit 500 1000), (⟨11500, 19187, 14784⟩, .withdraw 3000)] := by
  decide +kernel

example := C117_every_moment lawful night_reachable (hist_runs morning_run) asleep (careful_night tB (by simp))
example := C117_never_first (k := siteAB) lawful night_reachable (hist_runs morning_run) asleep (careful_night _ (by simp)) (by decide +kernel)

example : (∃ t ∈ [tB] ++ [siteAB].map PairSite.lt, ∃ a adm, morning.contracts a = some ⟨adm, .other⟩ ∧ (a = t ∨ Allows night user2 t a)) ∨
    (∃ k ∈ [siteAB], k.Broken morning) ∨ worthOf worth [tB] [siteAB] user2 night ≤ worthOf worth [tB] [siteAB] user2 morning :=
  C117_sleep lawful night_reachable (hist_runs morning_run) asleep careful_night
    (fun k hk => by rw [List.mem_singleton.mp hk]; exact sound_night)
    (fun k hk => by
      rw [List.mem_singleton.mp hk]
      rw [nightly_calls]
      simp [Leak, Slip]) worth (fun k hk => by rw [List.mem_singleton.mp hk]; decide +kernel)
/-- Before the night 6456 and something, after it 6507 and something. -/
example : worthOf worth [tB] [siteAB] user2 night = 45656800 / 7071 ∧ worthOf worth [tB] [siteAB] user2 morning = 9585400 / 1473 := by
  have h1 : held night (.token tB) user2 = 400 ∧ held night (.token lpAB) user2 = 1000 ∧ supplyAt night lpAB = 14142 ∧
      held night (.token tA) pAB = 10000 ∧ held night (.token tB) pAB = 20000 := by decide +kernel
  have h2 : held morning (.token tB) user2 = 400 ∧ held morning (.token lpAB) user2 = 1000 ∧ supplyAt morning lpAB = 11784 ∧
      held morning (.token tA) pAB = 9167 ∧ held morning (.token tB) pAB = 15294 := by decide +kernel
  obtain ⟨a1, a2, a3, a4, a5⟩ := h1
  obtain ⟨b1, b2, b3, b4, b5⟩ := h2
  have ea : worth (.token tA) = 4 ∧ worth (.token tB) = 2 := by decide
  simp only [worthOf, List.map_cons, List.map_nil, List.sum_cons, List.sum_nil, siteAB, a1, a2, a3, a4, a5, b1, b2, b3, b4, b5, ea.1, ea.2]
  norm_num

end Demo
end Halo
