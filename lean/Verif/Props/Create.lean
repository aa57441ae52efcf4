import Verif.Lemmas.CreateL
import Verif.Props.Registry
/-! # The registry over histories (C38) and what its entries describe (C41) -/

namespace Halo

/-! ## C38 -/

/-- C38: in every reachable state a factory has at most one entry per registry key. -/
theorem C38_one_entry_per_key {c : Chain} {w : World} (hw : Reachable c w) {a : Addr} {adm : Option Addr}
    {s : Factory.State} (ha : w.contracts a = some ⟨adm, .factory s⟩) : (s.pairs.map Prod.fst).Nodup := by
  have h := ((hw.factoriesOk (Q := fun _ => True) (fun _ _ _ _ _ _ _ => trivial)) a adm s ha).sorted
  rw [List.Nodup, List.pairwise_map]
  exact h.imp (fun {x y} hxy he => by rw [he, bLt_irrefl] at hxy; cases hxy)

/-- C38: an entry that is registered between two transactions is there, unchanged, in every later state, whatever the
factory's code ids are, as long as the factory itself is not replaced by foreign code. -/
theorem C38_entries_stay {c : Chain} {w w' : World} (hw : Reachable c w) (hl : Later c w w') {a : Addr}
    {adm adm' : Option Addr} {s s' : Factory.State} (ha : w.contracts a = some ⟨adm, .factory s⟩)
    (ha' : w'.contracts a = some ⟨adm', .factory s'⟩) {e : Bytes × PairInfoRaw} (he : e ∈ s.pairs) : e ∈ s'.pairs := by
  have hok := (hw.factoriesOk (Q := fun _ => True) (fun _ _ _ _ _ _ _ => trivial)) a adm s ha
  have key : (∃ adm s', w'.contracts a = some ⟨adm, .factory s'⟩ ∧
      KeepI a (fun k x => AMap.get s.pairs k = some x) [] s') ∨ ∃ adm, w'.contracts a = some ⟨adm, .other⟩ := by
    clear ha'
    induction hl with
    | refl => exact .inl ⟨_, s, ha, hok, fun _ _ h => h, .inr (fun _ h => by cases h)⟩
    | step v w' hl hs ih =>
      have hv := hw.later hl
      cases hs with
      | tx adv gas _ _ signer m hu hx =>
        obtain ⟨n, hr⟩ := runTx_inv hx
        refine run_induct (P := fun w fs => (∃ adm s', w.contracts a = some ⟨adm, .factory s'⟩ ∧
          KeepI a (fun k x => AMap.get s.pairs k = some x) fs s') ∨ ∃ adm, w.contracts a = some ⟨adm, .other⟩) ?_ ?_ hr
        · rintro n w f w' fs rest (⟨_, s1, h1, h2⟩ | ⟨_, h1⟩) hst
          · exact h2.step h1 hst
          · exact .inr ((other_step hst h1).imp fun _ h => h.1)
        · refine ih.imp (fun ⟨adm1, s1, h1, h2⟩ => ⟨adm1, s1, h1, h2.ok, h2.keep, .inr ?_⟩) id
          exact NoFac.start hv.contractsAt hu h1 m
      | block => exact ih
      | env => exact ih
  rcases key with ⟨_, s1, h1, h2⟩ | ⟨_, h1⟩
  · rw [ha'] at h1
    cases h1
    exact get_mem (h2.keep _ _ (hok.sorted.get_of_mem he))
  · rw [ha'] at h1; cases h1

/-- C38: a pair query that is answered once is answered the same way forever. -/
theorem C38_query_stays {c : Chain} {w w' : World} (hw : Reachable c w) (hl : Later c w w') {a : Addr}
    {adm adm' : Option Addr} {s s' : Factory.State} (ha : w.contracts a = some ⟨adm, .factory s⟩)
    (ha' : w'.contracts a = some ⟨adm', .factory s'⟩) {as : AssetInfo × AssetInfo} {info : PairInfo}
    (hq : Factory.queryPair c.api s as = .ok info) : Factory.queryPair c.api s' as = .ok info := by
  simp only [Factory.queryPair, bind_eq_ok, okOr_eq_ok] at hq ⊢
  obtain ⟨r0, h0, r1, h1, p, hp, hn⟩ := hq
  have hok := ((hw.later hl).factoriesOk (Q := fun _ => True) (fun _ _ _ _ _ _ _ => trivial)) a adm' s' ha'
  exact ⟨r0, h0, r1, h1, p, hok.sorted.get_of_mem (C38_entries_stay hw hl ha ha' (get_mem hp)), hn⟩

/-- C38: entries are never taken away, so the registry never shrinks. -/
theorem C38_never_shrinks {c : Chain} {w w' : World} (hw : Reachable c w) (hl : Later c w w') {a : Addr}
    {adm adm' : Option Addr} {s s' : Factory.State} (ha : w.contracts a = some ⟨adm, .factory s⟩)
    (ha' : w'.contracts a = some ⟨adm', .factory s'⟩) : s.pairs.length ≤ s'.pairs.length := by
  have h1 := C38_one_entry_per_key hw ha
  have h2 : s.pairs.Nodup := List.Nodup.of_map _ h1
  exact (List.subperm_of_subset h2 (fun e he => C38_entries_stay hw hl ha ha' he)).length_le

/-! ## C41 -/

/-- **C41 (partial).** In every history from genesis in which the factory never executes `CreatePair` while one of its
two code ids is foreign code: each registry entry is, field by field, the content of a pair contract at the entry's
address, which only the factory can migrate; the recorded LP token is a halo token that only this pair can mint,
nobody can migrate, and that is neither of the pair's two assets. The alternative is that the factory has migrated the pair to foreign code. Missing: creations with
foreign code, for which it is false (`C41_counterexample`). -/
theorem C41_entry_describes_pair_partial {c : Chain} (hl : c.Lawful) {g w : World} (hg : Genesis g) {a : Addr}
    (hw : Without c (ForeignCreate c a) g w) {adm : Option Addr} {s : Factory.State}
    (ha : w.contracts a = some ⟨adm, .factory s⟩) {k : Bytes} {e : PairInfoRaw} (he : (k, e) ∈ s.pairs) :
    (e.assetInfos.1 ≠ .token e.liquidityToken ∧ e.assetInfos.2 ≠ .token e.liquidityToken) ∧
    ∃ p, c.api.canon p = some e.contractAddr ∧
      ((w.contracts p = some ⟨some a, .pair e⟩ ∧ ∃ lt ts, c.api.canon lt = some e.liquidityToken ∧
          w.contracts lt = some ⟨none, .token ts⟩ ∧ ts.mint = some ⟨p, none⟩) ∨
        w.contracts p = some ⟨some a, .other⟩) := by
  have h0 : FacI c a (fun _ _ => False) g [] :=
    ⟨(Reachable.genesis g hg).sane, fun _ _ _ h => h, fun adm s h => by rw [hg.2 a] at h; cases h⟩
  have h1 := FacI.without hl hw h0
  have R := h1.reg adm s ha
  exact ((R.placed k e (R.ok.sorted.get_of_mem he)).resolve_left id).deployed

/-- **C41 (partial).** Seen from outside: what the factory answers to a pair query is what the named contract answers
about itself, in a history as above. -/
theorem C41_answers_agree_partial {c : Chain} (hl : c.Lawful) {g w : World} (hg : Genesis g) {a : Addr}
    (hw : Without c (ForeignCreate c a) g w) {adm : Option Addr} {s : Factory.State}
    (ha : w.contracts a = some ⟨adm, .factory s⟩) {as : AssetInfo × AssetInfo} {info : PairInfo}
    (hq : Factory.queryPair c.api s as = .ok info) :
    (∃ ps, w.contracts info.contractAddr = some ⟨some a, .pair ps⟩ ∧ Pair.queryPairInfo c.api ps = .ok info ∧
      ∃ ts, w.contracts info.liquidityToken = some ⟨none, .token ts⟩ ∧
        ts.mint = some ⟨info.contractAddr, none⟩) ∨
    w.contracts info.contractAddr = some ⟨some a, .other⟩ := by
  simp only [Factory.queryPair, bind_eq_ok, okOr_eq_ok] at hq
  obtain ⟨r0, h0, r1, h1, e, he, hn⟩ := hq
  obtain ⟨_, p, hp, h⟩ := C41_entry_describes_pair_partial hl hg hw ha (get_mem he)
  have hr := (Reachable.genesis g hg).later hw.later
  have hn' := hn
  simp only [PairInfoRaw.toNormal, bind_eq_ok, humanize_eq_ok, pure_eq_ok] at hn
  obtain ⟨lt', g1, ca, g2, _, _, _, _, rfl⟩ := hn
  have human : ∀ {x k b y}, w.contracts x = some k → c.api.canon x = some b → c.api.human b = some y → x = y := by
    intro x k b y hx hb hy
    obtain ⟨n, _, rfl⟩ := hr.contractsAt _ _ hx
    have := hl.human_canon hb
    rw [hy] at this
    exact (Option.some.inj this).symm
  rcases h with ⟨h2, lt, ts, h3, h4, h5⟩ | h2
  · have e1 := human h2 hp g2
    have e2 := human h4 h3 g1
    subst e1 e2
    exact .inl ⟨e, h2, hn', ts, h4, h5⟩
  · have e1 := human h2 hp g2
    subst e1
    exact .inr h2

/-- C41, one transaction from any reachable state: an entry of the factory was there before, or describes a deployed pair,
or in this very transaction the factory created a pair with foreign code. -/
theorem C41_new_entry_partial {c : Chain} (hl : c.Lawful) {w w' : World} (hw : Reachable c w) {adv : Adv} {gas : Nat}
    {signer : Addr} {m : CosmosMsg} (hu : c.IsUser signer) (hx : runTx c adv gas w signer m = .ok w') {a : Addr}
    {adm adm' : Option Addr} {s s' : Factory.State} (ha : w.contracts a = some ⟨adm, .factory s⟩)
    (ha' : w'.contracts a = some ⟨adm', .factory s'⟩) {e : Bytes × PairInfoRaw} (he : e ∈ s'.pairs) :
    e ∈ s.pairs ∨ Deployed c a w' e.2 ∨ Occurs c adv (ForeignCreate c a) gas w [.msg signer (plain m)] := by
  have hok := (hw.factoriesOk (Q := fun _ => True) (fun _ _ _ _ _ _ _ => trivial)) a adm s ha
  have h0 : FacI c a (fun k x => AMap.get s.pairs k = some x) w [] := by
    refine ⟨hw.sane, (fun h => by rw [ha] at h; cases h), fun adm2 s2 h => ?_⟩
    rw [ha] at h
    cases h
    exact ⟨hok, fun _ _ h => h, fun _ _ h => .inl h, .idle _ (fun _ h => by cases h)⟩
  rcases FacI.tx hl hu h0 hx with h | h
  · exact .inr (.inr h)
  · have R := h.reg _ _ ha'
    rcases R.placed e.1 e.2 (R.ok.sorted.get_of_mem he) with h1 | h1
    · exact .inl (get_mem h1)
    · exact .inr (.inl h1.deployed)

/-! ## Examples and the counterexample -/

namespace Demo

/-- Whether an event occurs, computed. -/
def occursB (E : World → Frame → Bool) (adv : Adv) : Nat → World → List Frame → Bool
  | _, _, [] => false
  | 0, _, _ :: _ => false
  | n + 1, w, f :: fs => E w f ||
    match step chain adv n w f with
    | .ok (w', fs') => occursB E adv n w' (fs' ++ fs)
    | .error _ => false

theorem occursB_of {E : World → Frame → Prop} {B : World → Frame → Bool} (hB : ∀ w f, E w f → B w f = true) {adv : Adv}
    {n : Nat} {w : World} {fs : List Frame} (h : Occurs chain adv E n w fs) : occursB B adv n w fs = true := by
  induction h with
  | here n w w' f fs fs' h hs => simp [occursB, hB _ _ h]
  | later n w w' f fs fs' hs h ih => simp [occursB, hs, ih]

/-- A `CreatePair` for the factory `a` with foreign code, computed. -/
def foreignB (a : Addr) (w : World) : Frame → Bool
  | .msg _ ⟨.exec target (.createPair _ _) _, _⟩ =>
    target == a && match w.contracts a with
      | some ⟨_, .factory s⟩ => !(s.config.pairCodeId ≥ 1 && s.config.pairCodeId ≤ 4 && s.config.tokenCodeId ≥ 1 &&
          s.config.tokenCodeId ≤ 4)
      | _ => false
  | _ => false

theorem foreignB_of {a : Addr} {w : World} {f : Frame} (h : ForeignCreate chain a w f) : foreignB a w f = true := by
  obtain ⟨sender, target, as, req, funds, id, adm, s, rfl, h1, h2, h3⟩ := h
  have ht : target = a := by
    obtain ⟨b, h4, h5⟩ := resolve_eq_ok.mp h1
    simp only [chain, api, Option.some.injEq] at h4 h5
    rw [h4, h5]
  have codes : ∀ n, chain.codes n = some .other → ¬ (1 ≤ n ∧ n ≤ 4) := by
    intro n hn ⟨h5, h6⟩
    have : n = 1 ∨ n = 2 ∨ n = 3 ∨ n = 4 := by omega
    rcases this with rfl | rfl | rfl | rfl <;> cases hn
  simp only [foreignB, ht, beq_self_eq_true, Bool.true_and, h2, Bool.not_eq_true', Bool.and_eq_false_iff,
    decide_eq_false_iff_not]
  rcases h3 with h3 | h3
  · have := codes _ h3; omega
  · have := codes _ h3; omega

/-- No message of the list, run by `user`, makes the factory `a` create a pair with foreign code; computed. -/
def quiet (a : Addr) : List CosmosMsg → World → Bool
  | [], _ => true
  | m :: t, w => !occursB (foreignB a) idle 20 w [.msg user (plain m)] &&
    match runTx chain idle 20 w user m with
    | .ok v => quiet a t v
    | .error _ => false

theorem without_runs {a : Addr} {l : List CosmosMsg} {u : World} :
    ∀ {w w' : World}, Without chain (ForeignCreate chain a) u w → quiet a l w = true → runs l w = .ok w' →
      Without chain (ForeignCreate chain a) u w' := by
  induction l with
  | nil => intro w w' hu _ h; cases h; exact hu
  | cons m t ih =>
    intro w w' hu hq h
    simp only [runs, bind_eq_ok] at h
    obtain ⟨v, h1, h2⟩ := h
    simp only [quiet, h1, Bool.and_eq_true, Bool.not_eq_true'] at hq
    refine ih (.tx idle 20 w v user m hu isUser_user h1 fun ho => ?_) hq.2 h2
    have := occursB_of (B := foreignB a) (fun _ _ => foreignB_of) ho
    rw [hq.1] at this
    cases this

theorem deployed_clean : Without chain (ForeignCreate chain fac) genesis deployed :=
  without_runs .refl (by decide +kernel) deployed_run

/-- The demo history meets the hypotheses of C41, and its registry is not empty. -/
example : Genesis genesis ∧ Without chain (ForeignCreate chain fac) genesis deployed ∧
    deployed.contracts fac = some ⟨none, .factory (facState deployed fac)⟩ ∧
    (val (Factory.queryPair chain.api (facState deployed fac) (.token tA, .token tB))).isSome = true ∧
    (facState deployed fac).pairs.length = 2 :=
  ⟨⟨rfl, fun _ => rfl⟩, deployed_clean, facState_eq (by decide +kernel), by decide +kernel, by decide +kernel⟩

/-- A third pair is created; the first two entries stay (C38). -/
example : Reachable chain deployed ∧ Later chain deployed gapped ∧
    deployed.contracts fac = some ⟨none, .factory (facState deployed fac)⟩ ∧
    gapped.contracts fac = some ⟨none, .factory (facState gapped fac)⟩ ∧
    (facState deployed fac).pairs.length = 2 ∧ (facState gapped fac).pairs.length = 3 :=
  ⟨deployed_reachable, later_runs gapped_run, facState_eq (by decide +kernel), facState_eq (by decide +kernel),
    by decide +kernel, by decide +kernel⟩

/-- The creation of the third pair as one transaction (`C41_new_entry_partial`): the new entry was not there before, and no foreign
code is involved. -/
example : (∃ w', runTx chain idle 20 deployed user (createMsg tA tC) = .ok w') ∧
    ¬ Occurs chain idle (ForeignCreate chain fac) 20 deployed [.msg user (plain (createMsg tA tC))] := by
  refine ⟨⟨_, worldOf_eq (by decide +kernel)⟩, fun ho => ?_⟩
  have h1 := occursB_of (B := foreignB fac) (fun _ _ => foreignB_of) ho
  have h2 : occursB (foreignB fac) idle 20 deployed [.msg user (plain (createMsg tA tC))] = false := by decide +kernel
  rw [h2] at h1
  cases h1

/-- The owner selects foreign code 9 for LP tokens. -/
def foreignMsgs : List CosmosMsg := [tokenMsg, .exec fac (.updateConfig none (some 9) none) []]
def tD : Addr := chain.addrOf 9
def foreign : World := worldOf (runs foreignMsgs deployed)
theorem foreign_run : runs foreignMsgs deployed = .ok foreign := worldOf_eq (by decide +kernel)

/-- Foreign code that, when the LP token of the new pair (contract 11) is instantiated, creates the pair of A and D. -/
def reenter : Adv where
  act _ a := .ok (if a = chain.addrOf 11 then [plain (createMsg tA tD)] else [])
  query _ := q 0 0 0

/-- `user` creates a pair of A and C. -/
def mixed : World := worldOf (runTx chain reenter 20 foreign user (createMsg tA tC))
theorem mixed_run : runTx chain reenter 20 foreign user (createMsg tA tC) = .ok mixed := worldOf_eq (by decide +kernel)

end Demo

/-- C41 is false in general: with a foreign LP token code that creates another pair while it is instantiated, the entry for
A and D names a halo pair of A and C. -/
theorem C41_counterexample : ∃ (c : Chain) (w : World) (a : Addr) (adm : Option Addr) (s : Factory.State)
    (x y z : AssetInfo) (info : PairInfo) (adm' : Option Addr) (ps : Pair.State), c.Lawful ∧ Reachable c w ∧
    w.contracts a = some ⟨adm, .factory s⟩ ∧ Factory.queryPair c.api s (x, z) = .ok info ∧ info.assetInfos = (x, z) ∧
    w.contracts info.contractAddr = some ⟨adm', .pair ps⟩ ∧
    (Pair.queryPairInfo c.api ps).map PairInfo.assetInfos = .ok (x, y) ∧ y ≠ z := by
  have hw : Reachable Demo.chain Demo.mixed :=
    .step _ _ (Demo.deployed_reachable.later (Demo.later_runs Demo.foreign_run))
      (.tx Demo.reenter 20 _ _ _ _ Demo.isUser_user Demo.mixed_run)
  have h2 : ((Demo.val (Factory.queryPair Demo.chain.api (Demo.facState Demo.mixed Demo.fac)
      (.token Demo.tA, .token Demo.tD))).map fun i => (i.assetInfos, i.contractAddr)) =
        some ((.token Demo.tA, .token Demo.tD), Demo.chain.addrOf 10) := by decide +kernel
  rw [Option.map_eq_some_iff] at h2
  obtain ⟨info, h3, h4⟩ := h2
  obtain ⟨adm', ps, h5, h6⟩ := Demo.exists_pair (w := Demo.mixed) (a := Demo.chain.addrOf 10)
    (t := fun p => decide ((Demo.val (Pair.queryPairInfo Demo.chain.api p.2)).map PairInfo.assetInfos =
      some (.token Demo.tA, .token Demo.tC))) (by decide +kernel)
  refine ⟨Demo.chain, Demo.mixed, Demo.fac, none, _, .token Demo.tA, .token Demo.tC, .token Demo.tD, info, adm', ps,
    Demo.lawful, hw, Demo.facState_eq (by decide +kernel), Demo.val_eq h3, (Prod.mk.inj h4).1, ?_, ?_, by decide⟩
  · rw [(Prod.mk.inj h4).2]; exact h5
  · simp only [decide_eq_true_eq, Option.map_eq_some_iff] at h6
    obtain ⟨i, h7, h8⟩ := h6
    rw [Demo.val_eq h7]
    exact congrArg _ h8

end Halo
