import Verif.Props.Desk
import Verif.Props.Admins
import Verif.Props.Commute
/-! # C110: what the owner of a factory can do to its pairs, and nobody else can -/

namespace Halo
open _root_.Halo.Spec

namespace PowerL

/-- The messages by which a contract hands all it has of some assets to `S`. -/
def loot (w : World) (p S : Addr) (L : List AssetInfo) : List SubMsg :=
  L.map fun i => plain ((⟨i, held w i p⟩ : Asset).intoMsg S)

/-- They all go through, one after the other. -/
theorem loot_run {c : Chain} (adv : Adv) (n : Nat) {p S : Addr} (hS : c.api.resolve S = .ok S) (hne : p ≠ S) {w : World} :
    ∀ {L : List AssetInfo} {v : World}, L.Nodup → TokensOk v → (∀ i ∈ L, Honest v i) → (∀ t, .token t ∈ L → c.api.resolve t = .ok t) →
      (∀ i ∈ L, held w i p ≠ 0) → (∀ i ∈ L, held v i p = held w i p) →
      ∃ v', run c adv (L.length + n) v ((loot w p S L).map (Frame.msg p)) = .ok (n, v') ∧ (∀ i, i ∉ L → ∀ b, held v' i b = held v i b) ∧
        ∀ i ∈ L, held v' i p = 0 ∧ held v' i S = held v i S + held w i p ∧ ∀ b, b ≠ p → b ≠ S → held v' i b = held v i b
  | [], v, _, _, _, _, _, _ => ⟨v, by simp [loot, run], fun _ _ _ => rfl, by simp⟩
  | i :: L, v, hn, hv, hh, hr, hz, he => by
    have hi := he i (by simp)
    obtain ⟨v1, h1⟩ := pay_live adv (L.length + n) (v := v) (i := i) (x := held w i p) (src := p) (dst := S) hv (hh i (by simp))
      (fun t ht => hr t (by simp [ht])) hS (hz i (by simp)) (le_of_eq hi.symm)
    obtain ⟨_, hx⟩ := xfer_pay (hh i (by simp)) (fun t ht => hr t (by simp [ht])) hS (step_inv h1)
    obtain ⟨hni, hnL⟩ := List.nodup_cons.mp hn
    have ne : ∀ j ∈ L, j ≠ i := fun j hj e => hni (e ▸ hj)
    obtain ⟨v', h2, h3, h4⟩ := loot_run adv n hS hne (w := w) (L := L) (v := v1) hnL (hv.step (step_inv h1))
      (fun j hj => hx.keep.honest (hh j (by simp [hj]))) (fun t ht => hr t (by simp [ht])) (fun j hj => hz j (by simp [hj]))
      (fun j hj => (hx.other j (ne j hj) p).trans (he j (by simp [hj])))
    obtain ⟨b1, b2⟩ := hx.bal hne
    refine ⟨v', ?_, ?_, ?_⟩
    · rw [List.length_cons, Nat.add_right_comm]
      exact run_cons_of h1 h2
    · intro j hj b
      rw [List.mem_cons, not_or] at hj
      exact (h3 j hj.2 b).trans (hx.other j hj.1 b)
    · intro j hj
      rcases List.mem_cons.mp hj with rfl | hj
      · rw [h3 j hni p, h3 j hni S]
        exact ⟨by omega, b2, fun b h5 h6 => (h3 j hni b).trans (hx.rest b h5 h6)⟩
      · obtain ⟨a1, a2, a3⟩ := h4 j hj
        refine ⟨a1, by rw [a2, hx.other j (ne j hj)], fun b h5 h6 => by rw [a3 b h5 h6, hx.other j (ne j hj)]⟩

end PowerL

open PowerL

/-- **C110.** The owner of a factory can take everything a pair of the factory holds: in every reachable state, two transactions of
theirs, a `MigratePair` to code of their own and a call of that code, give them all the pair holds of its two assets and of anything
else (any list `L` of native coins and halo tokens). Nobody else's holdings change; in particular the liquidity providers keep LP
tokens with nothing behind them. -/
theorem C110_owner_takes {c : Chain} (hc : c.Lawful) {w : World} (hw : Reachable c w) {f p S : Addr} {fadm : Option Addr}
    {fs : Factory.State} (hf : w.contracts f = some ⟨fadm, .factory fs⟩) (hown : c.api.human fs.config.owner = some S) (hS : c.IsUser S)
    {ps : Pair.State} (hp : w.contracts p = some ⟨some f, .pair ps⟩) {code : Nat} (hcode : c.codes code = some .other)
    (hb : code < 2 ^ 64) {L : List AssetInfo} (hL : L.Nodup) (hh : ∀ i ∈ L, Honest w i) (hz : ∀ i ∈ L, held w i p ≠ 0)
    {m : ExecMsg} (hmsg : m.inRange = true) (ask : Nat → Querier) :
    ∃ adv gas w1 w2, runTx c adv gas w S (.exec f (.migratePair p (some code)) []) = .ok w1 ∧
      runTx c adv (L.length + 1) w1 S (.exec p m []) = .ok w2 ∧
      (∀ i ∈ L, held w2 i p = 0 ∧ held w2 i S = held w i S + held w i p ∧ ∀ b, b ≠ p → b ≠ S → held w2 i b = held w i b) ∧
      ∀ i, i ∉ L → ∀ b, held w2 i b = held w i b := by
  obtain ⟨d, hd⟩ := C64_has_owner hc hw hf
  have hSd : S = d.owner := by
    have := hd.owner
    rw [hown] at this
    exact Option.some.inj this
  have hpr := (addr_facts hc hw hp).1
  have hSp : p ≠ S := Ne.symm ((addr_facts hc hw hp).2 S hS)
  have hSr : c.api.resolve S = .ok S := PairSite.resolve_of_validate hS.2
  let adv : Adv := ⟨fun _ _ => .ok (loot w p S L), ask⟩
  obtain ⟨gas, h1⟩ := (C64_migrate_iff hc hw hS hf hd p (some code) (by simpa [optLt] using hb) adv
    (w.setState p (some f) (migrateState .other (.pair ps)))).mpr ⟨hSd, .other, p, .pair ps, ⟨hcode, hpr, hp⟩, rfl⟩
  have hw1 : Reachable c (w.setState p (some f) (migrateState .other (.pair ps))) := .step _ _ hw (.tx _ _ _ _ _ _ hS h1)
  have hm : migrateState .other (.pair ps) = .other := rfl
  rw [hm] at h1 hw1
  have hne : ∀ t, Honest w (.token t) → t ≠ p := by
    intro t ht e
    obtain ⟨_, _, h⟩ := ht t rfl
    rw [e, hp] at h
    cases h
  have hheld : ∀ i b, held (w.setState p (some f) .other) i b = held w i b := by
    intro i b
    cases i with
    | native d => rfl
    | token t =>
      by_cases e : t = p
      · subst e
        simp only [held, World.setState, setContract_self, hp]
      · exact held_setToken_ne (fun q => e (by injection q)) b
  obtain ⟨w2, h2, h3, h4⟩ := loot_run (c := c) adv 0 hSr hSp (w := w) hL hw1.tokensOk
    (fun i hi t ht => by
      subst ht
      obtain ⟨adm, st, h⟩ := hh _ hi t rfl
      exact ⟨adm, st, (setContract_ne _ _ (hne t (hh _ hi))).trans h⟩)
    (fun t ht => by
      obtain ⟨_, _, h⟩ := hh _ ht t rfl
      exact (addr_facts hc hw h).1) hz (fun i _ => hheld i p)
  refine ⟨adv, gas, _, w2, h1, ?_, ?_, ?_⟩
  · have hst : step c adv L.length (w.setState p (some f) .other) (.msg S (plain (.exec p m []))) =
        .ok (w.setState p (some f) .other, (loot w p S L).map (Frame.msg p)) := by
      have hc1 : (w.setState p (some f) .other).contracts p = some ⟨some f, .other⟩ := setContract_self _ _ _
      simp only [step, plain, bind_eq_ok, require_eq_ok, pure_eq_ok, Prod.exists, callExecute]
      refine ⟨p, hpr, (), by rw [hc1]; rfl, w.setState p (some f) .other, moveCoins_nil.mpr rfl, w.setState p (some f) .other,
        (loot w p S L).map (Frame.msg p), ⟨(), hmsg, ?_⟩, by simp only [replyFrame, List.append_nil]⟩
      rw [hc1]
      simp only [bind_eq_ok, pure_eq_ok]
      exact ⟨_, rfl, rfl⟩
    have : run c adv (L.length + 1) (w.setState p (some f) .other) [.msg S (plain (.exec p m []))] = .ok (0, w2) :=
      run_cons_of hst (by rw [List.append_nil]; exact h2)
    simp only [runTx, bind_eq_ok, pure_eq_ok, Prod.exists]
    exact ⟨_, _, this, rfl⟩
  · intro i hi
    obtain ⟨a1, a2, a3⟩ := h4 i hi
    exact ⟨a1, by rw [a2, hheld], fun b h5 h6 => by rw [a3 b h5 h6, hheld]⟩
  · intro i hi b
    rw [h3 i hi b, hheld]

/-! ## Nobody else -/

/-- A history in which no transaction is signed by one of certain accounts. -/
inductive Abstain (c : Chain) (bad : Addr → Prop) : World → World → Prop where
  | refl (w : World) : Abstain c bad w w
  | tx (w v v' : World) (h : Abstain c bad w v) (adv : Adv) (gas : Nat) (signer : Addr) (m : CosmosMsg) (hu : c.IsUser signer)
      (hn : ¬ bad signer) (hx : runTx c adv gas v signer m = .ok v') : Abstain c bad w v'
  | block (w v : World) (h : Abstain c bad w v) (b : Block) : Abstain c bad w { v with block := b }
  | env (w v : World) (h : Abstain c bad w v) (bank' : Denom → AMap Addr Nat)
      (hb : ∀ d n, (v.bank d).getD0 (c.addrOf n) ≤ (bank' d).getD0 (c.addrOf n)) : Abstain c bad w { v with bank := bank' }

namespace PowerL

theorem reach {c : Chain} {bad : Addr → Prop} {w w' : World} (hw : Reachable c w) (h : Abstain c bad w w') : Reachable c w' := by
  induction h with
  | refl => exact hw
  | tx v v' h adv gas signer m hu hn hx ih => exact .step _ _ ih (.tx _ _ _ _ _ _ hu hx)
  | block v h b ih => exact .step _ _ ih (.block _ _)
  | env v h b hb ih => exact .step _ _ ih (.env _ _ hb)

/-- A contract whose admin does not sign keeps its code and its admin. -/
theorem unmoved {c : Chain} {adv : Adv} {gas : Nat} {w w' : World} {signer : Addr} {m : CosmosMsg} (hw : Reachable c w)
    (hu : c.IsUser signer) (h : runTx c adv gas w signer m = .ok w') {a : Addr} {adm : Option Addr} {k : CState}
    (ha : w.contracts a = some ⟨adm, k⟩) (hadm : ∀ x, adm = some x → c.IsUser x ∧ signer ≠ x) :
    ∃ k', w'.contracts a = some ⟨adm, k'⟩ ∧ k'.code = k.code := by
  obtain ⟨n, hr⟩ := runTx_inv h
  have key := run_induct (c := c) (adv := adv)
    (P := fun v fs => Sane c v fs ∧ (∀ x, adm = some x → ∀ f ∈ fs, f.actor ≠ x) ∧ ∃ k', v.contracts a = some ⟨adm, k'⟩ ∧ k'.code = k.code)
    ?_ ?_ hr
  · exact key.2.2
  · rintro n v f v' fs rest ⟨hs, hact, k1, h1, h2⟩ hst
    have hs' := hs.step hst
    refine ⟨hs', ?_, ?_⟩
    · intro x hx g hg
      rcases List.mem_append.mp hg with hg | hg
      · rcases actor_step hst g hg with e | e
        · rw [e]; exact hact x hx f (by simp)
        · intro e2
          rw [e2, hs'.at_addr.user (hadm x hx).1.1] at e
          cases e
      · exact hact x hx g (by simp [hg])
    · by_cases hE : AdminCall c a v f
      · exfalso
        obtain ⟨sender, target, id, k3, _, h9, ⟨code, hf⟩ | ⟨new, hf⟩⟩ := hE
        · rw [h1] at h9
          cases h9
          exact hact sender rfl f (by simp) (by rw [hf]; rfl)
        · rw [h1] at h9
          cases h9
          exact hact sender rfl f (by simp) (by rw [hf]; rfl)
      · obtain ⟨k', h3, h4⟩ := code_step hst h1 hE
        exact ⟨k', h3, h4.trans h2⟩
  · refine ⟨hw.sane.start hu m, fun x hx => ?_, k, ha, rfl⟩
    simpa [Frame.actor] using (hadm x hx).2

end PowerL

namespace PowerL

/-- A contract whose admin never signs keeps its code and its admin. -/
theorem unmoved_hist {c : Chain} {bad : Addr → Prop} {w w' : World} (hw : Reachable c w) (h : Abstain c bad w w') {a : Addr}
    {adm : Option Addr} {k : CState} (ha : w.contracts a = some ⟨adm, k⟩) (hadm : ∀ x, adm = some x → c.IsUser x ∧ bad x) :
    ∃ k', w'.contracts a = some ⟨adm, k'⟩ ∧ k'.code = k.code := by
  induction h with
  | refl => exact ⟨k, ha, rfl⟩
  | block v h b ih => exact ih
  | env v h b hb ih => exact ih
  | tx v v' h adv gas signer m hu hn hx ih =>
    obtain ⟨k1, h1, h2⟩ := ih
    obtain ⟨k2, h3, h4⟩ := unmoved (reach hw h) hu hx h1 (fun x e => ⟨(hadm x e).1, fun e' => hn (e' ▸ (hadm x e).2)⟩)
    exact ⟨k2, h3, h4.trans h2⟩

end PowerL

/-- **C110.** Nobody else can: over any history in which neither the owner of the factory nor the factory's own admin (if it has one)
signs a transaction, every pair of the factory keeps its code, its storage and its admin, and the factory its owner. -/
theorem C110_nobody_else {c : Chain} (hc : c.Lawful) {w w' : World} (hw : Reachable c w) {f o : Addr} {fadm : Option Addr}
    {fs : Factory.State} (hf : w.contracts f = some ⟨fadm, .factory fs⟩) (hown : c.api.human fs.config.owner = some o) (ho : c.IsUser o)
    {bad : Addr → Prop} (hbo : bad o) (hadm : ∀ x, fadm = some x → c.IsUser x ∧ bad x) (h : Abstain c bad w w') :
    (∃ fs', w'.contracts f = some ⟨fadm, .factory fs'⟩ ∧ fs'.config = fs.config) ∧
      ∀ p ps, w.contracts p = some ⟨some f, .pair ps⟩ → w'.contracts p = some ⟨some f, .pair ps⟩ := by
  induction h with
  | refl => exact ⟨⟨fs, hf, rfl⟩, fun _ _ h => h⟩
  | block v h b ih => exact ih
  | env v h b hb ih => exact ih
  | tx v v' h adv gas signer m hu hn hx ih =>
    obtain ⟨⟨fs1, h1, h2⟩, h3⟩ := ih
    have hv := reach hw h
    obtain ⟨k, h4, h5⟩ := unmoved hv hu hx h1 (fun x e => ⟨(hadm x e).1, fun e' => hn (e' ▸ (hadm x e).2)⟩)
    obtain ⟨fs', rfl⟩ : ∃ fs', k = .factory fs' := by
      cases k <;> first | exact ⟨_, rfl⟩ | cases h5
    obtain ⟨a1, _, a3⟩ := C37_not_without_owner hc hv hu hx h1 h4 (by rw [h2]; exact hown) ho (fun e => hn (e ▸ hbo))
    exact ⟨⟨fs', h4, a1.trans h2⟩, fun p ps hp => a3 p ps (h3 p ps hp)⟩

/-- **C110.** A pair of the factory with honest assets stays one (and with it all that is proved about such pairs), over any history in
which nothing is signed by the owner of the factory, the admin of the factory, or the admins of its asset tokens. -/
theorem C110_whom_to_trust {c : Chain} (hc : c.Lawful) {w w' : World} (hw : Reachable c w) {k : PairSite} (hk : k.Sound c w) {f o : Addr}
    {fadm : Option Addr} {fs : Factory.State} (hp : w.contracts k.a = some ⟨some f, .pair k.s⟩)
    (hf : w.contracts f = some ⟨fadm, .factory fs⟩) (hown : c.api.human fs.config.owner = some o) (ho : c.IsUser o)
    {bad : Addr → Prop} (hbo : bad o) (hadm : ∀ x, fadm = some x → c.IsUser x ∧ bad x)
    (htok : ∀ t x s, (k.i0 = .token t ∨ k.i1 = .token t) → w.contracts t = some ⟨some x, s⟩ → c.IsUser x ∧ bad x)
    (h : Abstain c bad w w') : k.Sound c w' := by
  have honest : ∀ i, (i = k.i0 ∨ i = k.i1 ∨ i = .token k.lt) → Honest w' i := by
    rintro i hi t rfl
    have hh : Honest w (.token t) := by
      rcases hi with e | e | e
      · exact e ▸ hk.asset0
      · exact e ▸ hk.asset1
      · exact e ▸ hk.token
    obtain ⟨adm, st, h1⟩ := hh t rfl
    obtain ⟨j, h2, h3⟩ := unmoved_hist hw h h1 (fun x e => by
      subst e
      rcases hi with e | e | e
      · exact htok t x _ (.inl e.symm) h1
      · exact htok t x _ (.inr e.symm) h1
      · obtain ⟨st', h4, _⟩ := (hk.good hc hw).lp
        injection e with e
        rw [← e, h1] at h4
        cases h4)
    cases j <;> first | exact ⟨_, _, h2⟩ | cases h3
  exact ⟨⟨_, (C110_nobody_else hc hw hf hown ho hbo hadm h).2 _ _ hp⟩, hk.info0, hk.info1, hk.lp, hk.ne, hk.lp0, hk.lp1,
    honest _ (.inl rfl), honest _ (.inr (.inl rfl)), honest _ (.inr (.inr rfl))⟩

namespace Demo

private theorem factory_is : deployed.contracts fac = some ⟨none, .factory (facState deployed fac)⟩ := facState_eq (by decide +kernel)

private theorem pair_is : deployed.contracts pAB = some ⟨some fac, .pair siteAB.s⟩ := by
  obtain ⟨adm, s, h, h2⟩ := exists_pair (w := deployed) (a := pAB) (t := fun x => decide (x.1 = some fac)) (by decide +kernel)
  simp only [decide_eq_true_eq] at h2
  have := sound_AB.pair
  have e : siteAB.a = pAB := rfl
  rw [e] at this
  rw [h] at this ⊢
  cases this
  rw [h2]

private theorem honest_of {t : Addr} (h : ((tokenAt deployed t).map fun _ => true) = some true) : Honest deployed (.token t) := by
  intro t' e
  cases e
  obtain ⟨adm, st, h, _⟩ := exists_token h
  exact ⟨adm, st, h⟩

/-- `user` owns the factory and can empty the pair. -/
example := C110_owner_takes lawful deployed_reachable factory_is (by decide +kernel) isUser_user pair_is (code := 7) rfl (by decide)
  (L := [.token tA, .token tB]) (by decide) (by
    intro i hi
    simp only [List.mem_cons, List.not_mem_nil, or_false] at hi
    rcases hi with rfl | rfl
    · exact honest_of (by decide +kernel)
    · exact honest_of (by decide +kernel)) (by decide +kernel) (m := .burn 0) rfl idle.query

/-- A transaction of somebody else. -/
example := C110_whom_to_trust lawful deployed_reachable sound_AB pair_is factory_is (by decide +kernel) isUser_user
  (bad := fun u => u = user) rfl (fun x e => nomatch e) (by
    intro t x s ht h
    exfalso
    rcases ht with ht | ht <;> cases ht
    · obtain ⟨adm, st, h1, h2⟩ := exists_token (w := deployed) (a := tA) (t := fun x => decide (x.1 = none)) (by decide +kernel)
      simp only [decide_eq_true_eq] at h2
      rw [h] at h1
      cases h1
      cases h2
    · obtain ⟨adm, st, h1, h2⟩ := exists_token (w := deployed) (a := tB) (t := fun x => decide (x.1 = none)) (by decide +kernel)
      simp only [decide_eq_true_eq] at h2
      rw [h] at h1
      cases h1
      cases h2)
  (.tx _ _ _ (.refl _) idle 20 user2 (createMsg tA tC) isUser_user2 (by decide)
    (worldOf_eq (by decide +kernel)))

end Demo
end Halo
