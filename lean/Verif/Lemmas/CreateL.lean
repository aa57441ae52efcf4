import Verif.Lemmas.OccursL
import Verif.Lemmas.RegistryL
/-! # Pair creation: the message stack of a factory and what its registry entries describe (helper lemmas) -/

namespace Halo

/-- A factory executes `CreatePair` while one of its two code ids is foreign code. -/
def ForeignCreate (c : Chain) (a : Addr) (w : World) (f : Frame) : Prop :=
  ∃ sender target as req funds id adm s, f = .msg sender ⟨.exec target (.createPair as req) funds, id⟩ ∧
    c.api.resolve target = .ok a ∧ w.contracts a = some ⟨adm, .factory s⟩ ∧
    (c.codes s.config.pairCodeId = some .other ∨ c.codes s.config.tokenCodeId = some .other)

/-- Neither asset of the entry `e` is its LP token. -/
def LpApart (e : PairInfoRaw) : Prop :=
  e.assetInfos.1 ≠ .token e.liquidityToken ∧ e.assetInfos.2 ≠ .token e.liquidityToken

/-- The registry entry `e` of the factory `a` is the content of a pair that only `a` can migrate, with an LP token
that only the pair can mint, nobody can migrate and is neither of its assets; or the factory migrated the pair to foreign code. -/
def Deployed (c : Chain) (a : Addr) (w : World) (e : PairInfoRaw) : Prop :=
  LpApart e ∧ ∃ p, c.api.canon p = some e.contractAddr ∧
    ((w.contracts p = some ⟨some a, .pair e⟩ ∧ ∃ lt ts, c.api.canon lt = some e.liquidityToken ∧
        w.contracts lt = some ⟨none, .token ts⟩ ∧ ts.mint = some ⟨p, none⟩) ∨
      w.contracts p = some ⟨some a, .other⟩)

/-- As `Deployed`, with no reply to the pair outstanding. -/
def Placed (c : Chain) (a : Addr) (w : World) (fs : List Frame) (e : PairInfoRaw) : Prop :=
  LpApart e ∧ ∃ p, c.api.canon p = some e.contractAddr ∧
    ((w.contracts p = some ⟨some a, .pair e⟩ ∧ Settled p fs ∧ ∃ lt ts, c.api.canon lt = some e.liquidityToken ∧
        w.contracts lt = some ⟨none, .token ts⟩ ∧ ts.mint = some ⟨p, none⟩) ∨
      w.contracts p = some ⟨some a, .other⟩)

theorem Placed.deployed {c : Chain} {a : Addr} {w : World} {fs : List Frame} {e : PairInfoRaw}
    (h : Placed c a w fs e) : Deployed c a w e := by
  obtain ⟨h0, p, h1, h2⟩ := h
  exact ⟨h0, p, h1, h2.imp (fun h => ⟨h.1, h.2.2⟩) id⟩

/-- A token that nobody can migrate stays a token. -/
theorem tok_noadmin {c : Chain} {adv : Adv} {n : Nat} {w w' : World} {f : Frame} {fs : List Frame}
    (h : StepI c adv n w f w' fs) {t : Addr} {s : TokenState} (ht : w.contracts t = some ⟨none, .token s⟩) :
    ∃ s', w'.contracts t = some ⟨none, .token s'⟩ := by
  rcases tok_step h ht with ⟨adm', h1, rfl | h2⟩ | h1 | ⟨_, _, _, _, _, s', _, _, _, _, h1, _⟩
  · exact ⟨_, h1⟩
  · exact (Readmin.none h2).elim
  · exfalso
    cases h with
    | bank _ _ _ _ _ _ _ _ hmv => rw [(moveCoins_inv hmv).contracts, ht] at h1; cases h1
    | other _ _ _ _ _ _ _ _ _ _ hmv => rw [(moveCoins_inv hmv).contracts, ht] at h1; cases h1
    | replyOther => rw [ht] at h1; cases h1
    | token _ _ _ _ _ me w1 admin s1 s' r _ hmv _ hc _ | pair _ _ _ _ _ me w1 admin s1 s' r _ hmv _ hc _
    | factory _ _ _ _ _ me w1 admin s1 s' r _ hmv _ hc _ | router _ _ _ _ _ me w1 admin s1 s' r _ hmv _ hc _ =>
      by_cases h2 : t = me
      · subst h2
        simp only [World.setState, setContract_self] at h1
        cases h1
      · cases h1.symm.trans (((setContract_ne _ _ h2).trans (congrFun (moveCoins_inv hmv).contracts t)).trans ht)
    | inst _ _ _ _ _ _ _ _ _ _ _ _ _ hnew hmv =>
      have h2 : t ≠ c.addrOf w.next := by rintro rfl; rw [ht] at hnew; cases hnew
      cases h1.symm.trans (((setContract_ne _ _ h2).trans (congrFun (moveCoins_inv hmv).contracts t)).trans ht)
    | migrate _ _ _ _ _ me _ _ _ hc | admin _ _ _ _ _ me _ _ hc =>
      by_cases h2 : t = me
      · subst h2; rw [ht] at hc; cases hc
      · cases h1.symm.trans ((setContract_ne _ _ h2).trans ht)
    | replyPair me _ _ _ _ _ _ hc | replyFactory me _ _ _ _ _ _ hc =>
      have h2 : t ≠ me := by rintro rfl; rw [ht] at hc; cases hc
      cases h1.symm.trans ((setContract_ne _ _ h2).trans ht)
  · exact ⟨_, h1⟩

theorem Placed.step {c : Chain} {adv : Adv} {n : Nat} {w w' : World} {f : Frame} {fs rest : List Frame} {a : Addr}
    {e : PairInfoRaw} (hi : Sane c w (f :: rest)) (h : StepI c adv n w f w' fs) (hna : ∀ p, ¬ Readmin c p (some a) f)
    (hp : Placed c a w (f :: rest) e) :
    Placed c a w' (fs ++ rest) e := by
  obtain ⟨h0, p, h1, ⟨h2, h3, lt, ts, h4, h5, h6⟩ | h2⟩ := hp
  · refine ⟨h0, p, h1, (h3.step h2 h).imp (fun ⟨adm', g1, g2, g3⟩ => ?_) (fun g => g.1)⟩
    cases g2.resolve_right (hna p)
    refine ⟨g1, g3, ?_⟩
    obtain ⟨ts', h7⟩ := tok_noadmin h h5
    refine ⟨lt, ts', h4, h7, ?_⟩
    rcases LPat.step hi h h2 (.inl ⟨ts, h5, h6⟩) with ⟨s2, h8, h9⟩ | h8
    · rw [h7] at h8; cases h8; exact h9
    · rw [h7] at h8; cases h8
  · obtain ⟨adm', g1, g2⟩ := other_step h h2
    cases g2.resolve_right (hna p)
    exact ⟨h0, p, h1, .inr g1⟩

/-- A token asset is a contract that exists. -/
def Stands (c : Chain) (w : World) (r : AssetInfoRaw) : Prop :=
  ∀ b, r = .token b → ∃ t, c.api.canon t = some b ∧ (w.contracts t).isSome = true

theorem Stands.step {c : Chain} {adv : Adv} {n : Nat} {w w' : World} {f : Frame} {fs : List Frame}
    (h : StepI c adv n w f w' fs) {r : AssetInfoRaw} (hr : Stands c w r) : Stands c w' r := by
  intro b hb
  obtain ⟨t, h1, h2⟩ := hr b hb
  exact ⟨t, h1, isSome_step h h2⟩

/-- A contract whose address was free when the asset existed is not the asset. -/
theorem Stands.ne {c : Chain} (hl : c.Lawful) {w : World} {r : AssetInfoRaw} {k : Nat} {b : Bytes} (hat : ContractsAt c w)
    (hr : Stands c w r) (hn : w.contracts (c.addrOf k) = none) (hb : c.api.canon (c.addrOf k) = some b) :
    r ≠ .token b := by
  intro he
  obtain ⟨t, h1, h2⟩ := hr b he
  obtain ⟨ct, h3⟩ := Option.isSome_iff_exists.mp h2
  obtain ⟨j, _, rfl⟩ := hat _ _ h3
  have e1 := hl.human_canon h1
  have e2 := hl.human_canon hb
  rw [e1] at e2
  rw [Option.some.inj e2, hn] at h3
  cases h3

/-- A token that answered a query for its decimals exists. -/
theorem Stands.of_decimals {c : Chain} (hl : c.Lawful) {w : World} {q : Querier} {i : AssetInfo} {r : AssetInfoRaw}
    {me : Addr} {d : Nat} (hq : ∀ t x, q.tokenInfo t = .ok x → ∃ b, c.api.resolve t = .ok b ∧ (w.contracts b).isSome = true)
    (h : i.queryDecimals q me = .ok d) (hr : i.toRaw c.api = .ok r) : Stands c w r := by
  intro b hb
  subst hb
  cases i with
  | native x => simp only [AssetInfo.toRaw] at hr; cases hr
  | token t =>
    simp only [AssetInfo.toRaw, bind_eq_ok, pure_eq_ok, canonicalize_eq_ok] at hr
    obtain ⟨b', h1, h2⟩ := hr
    cases h2
    simp only [AssetInfo.queryDecimals, bind_eq_ok] at h
    obtain ⟨x, h2, _⟩ := h
    obtain ⟨t', h3, h4⟩ := hq _ _ h2
    obtain ⟨b2, h5, h6⟩ := resolve_eq_ok.mp h3
    rw [h1] at h5
    cases h5
    exact ⟨t', hl.canon_human _ _ h6, h4⟩

/-- The factory at `a` waits for nothing; what it still has to send are migrations. -/
def NoFac (a : Addr) (fs : List Frame) : Prop :=
  ∀ f ∈ fs, f.actor = a → ∃ k code, f = .msg a (plain (.migrate k code))

/-- A pair as stored for the pending creation. -/
structure Fresh (c : Chain) (a : Addr) (w : World) (s : Factory.State) (p : Addr) (ps : Pair.State) : Prop where
  at_ : w.contracts p = some ⟨some a, .pair ps⟩
  addr : c.api.canon p = some ps.contractAddr
  valid : c.api.resolve p = .ok p
  tmp : ∃ t, s.tmp = some t ∧ t.assetInfos = ps.assetInfos ∧ t.assetDecimals = ps.assetDecimals ∧
    AMap.get s.pairs t.pairKey = none
  ex : Stands c w ps.assetInfos.1 ∧ Stands c w ps.assetInfos.2

/-- The stages of a pair creation. -/
inductive Stage (c : Chain) (a : Addr) (w : World) (s : Factory.State) : List Frame → Prop where
  | idle (fs : List Frame) (h : NoFac a fs) : Stage c a w s fs
  | pair (as : AssetInfo × AssetInfo) (req : Requirements) (d : Nat × Nat) (r0 r1 : AssetInfoRaw) (pc tc : Nat)
      (rest : List Frame) (h : NoFac a rest) (hpc : c.codes pc ≠ some .other) (htc : c.codes tc ≠ some .other)
      (h0 : as.1.toRaw c.api = .ok r0) (h1 : as.2.toRaw c.api = .ok r1)
      (ht : s.tmp = some ⟨Factory.pairKey (r0, r1), (r0, r1), d⟩)
      (hnew : AMap.get s.pairs (Factory.pairKey (r0, r1)) = none) (hex : Stands c w r0 ∧ Stands c w r1) :
      Stage c a w s (.msg a ⟨.inst (some a) pc (.pair as tc d req) [], some 1⟩ :: rest)
  | token (p : Addr) (ps : Pair.State) (tc : Nat) (rest : List Frame) (h : NoFac a rest) (hp : Settled p rest)
      (htc : c.codes tc ≠ some .other) (hf : Fresh c a w s p ps) :
      Stage c a w s (.msg p ⟨.inst none tc (.token (Pair.lpInst p)) [], some 1⟩ :: .reply a 1 (some p) :: rest)
  | link (p : Addr) (ps : Pair.State) (lt : Addr) (ts : TokenState) (rest : List Frame) (h : NoFac a rest)
      (hp : Settled p rest) (hf : Fresh c a w s p ps) (hlt : w.contracts lt = some ⟨none, .token ts⟩)
      (hm : ts.mint = some ⟨p, none⟩)
      (hno : ∀ b, c.api.canon lt = some b → ps.assetInfos.1 ≠ .token b ∧ ps.assetInfos.2 ≠ .token b) :
      Stage c a w s (.reply p 1 (some lt) :: .reply a 1 (some p) :: rest)
  | record (p : Addr) (ps : Pair.State) (lt : Addr) (ts : TokenState) (rest : List Frame) (h : NoFac a rest)
      (hp : Settled p rest) (hf : Fresh c a w s p ps) (hlt : w.contracts lt = some ⟨none, .token ts⟩)
      (hm : ts.mint = some ⟨p, none⟩) (hl : c.api.canon lt = some ps.liquidityToken) (hno : LpApart ps) :
      Stage c a w s (.reply a 1 (some p) :: rest)

/-- The factory's own messages never touch an admin. -/
theorem Stage.noReadmin {c : Chain} {a : Addr} {w : World} {s : Factory.State} {f : Frame} {rest : List Frame}
    {adm : Option Addr} (ha : w.contracts a = some ⟨adm, .factory s⟩) (h : Stage c a w s (f :: rest)) (p : Addr) :
    ¬ Readmin c p (some a) f := by
  rintro ⟨sender, target, new, id, hf, _, e⟩
  cases e
  subst hf
  generalize hl : Frame.msg a ⟨.updateAdmin target new, id⟩ :: rest = l at h
  cases h with
  | idle _ h =>
    subst hl
    obtain ⟨_, _, e⟩ := h _ (List.mem_cons_self) rfl
    cases e
  | pair | token | link | record => cases hl

/-- The registry during a transaction: what `K` lists is still there, and everything else describes a deployed pair. -/
structure RegI (c : Chain) (a : Addr) (K : Bytes → PairInfoRaw → Prop) (w : World) (fs : List Frame)
    (s : Factory.State) : Prop where
  ok : Factory.RegOk (fun _ => True) s
  keep : ∀ k e, K k e → AMap.get s.pairs k = some e
  placed : ∀ k e, AMap.get s.pairs k = some e → K k e ∨ Placed c a w fs e
  stage : Stage c a w s fs

/-- The invariant of an execution as far as the factory at `a` is concerned. -/
structure FacI (c : Chain) (a : Addr) (K : Bytes → PairInfoRaw → Prop) (w : World) (fs : List Frame) : Prop where
  sane : Sane c w fs
  new : w.contracts a = none → ∀ k e, ¬ K k e
  reg : ∀ adm s, w.contracts a = some ⟨adm, .factory s⟩ → RegI c a K w fs s

/-- What a step does to a factory that waits for nothing: nothing, it becomes foreign code, or it runs a message. -/
theorem new_frames {c : Chain} {adv : Adv} {n : Nat} {w w' : World} {f : Frame} {fs : List Frame}
    (h : StepI c adv n w f w' fs) {a : Addr} {adm : Option Addr} {s : Factory.State}
    (ha : w.contracts a = some ⟨adm, .factory s⟩) (hf : f.actor = a → ∃ m, f = .msg a (plain m)) :
    ((∀ g ∈ fs, g.actor ≠ a) ∧
      ((∃ adm', w'.contracts a = some ⟨adm', .factory s⟩) ∨ ∃ adm', w'.contracts a = some ⟨adm', .other⟩)) ∨
    ∃ sender target m funds id q s' r, f = .msg sender ⟨.exec target m funds, id⟩ ∧
      c.api.resolve target = .ok a ∧ Factory.Eff c.api q a s sender m s' r ∧
      w'.contracts a = some ⟨adm, .factory s'⟩ ∧ fs = frames a r ++ replyFrame sender id none ∧
      (∀ g ∈ replyFrame sender id none, g.actor ≠ a) ∧
      ∀ t x, q.tokenInfo t = .ok x → ∃ b, c.api.resolve t = .ok b ∧ (w.contracts b).isSome = true := by
  have norep : ∀ {sender : Addr} {m : CosmosMsg} {id : Option Nat} {cr : Option Addr},
      f = .msg sender ⟨m, id⟩ → ∀ g ∈ replyFrame sender id cr, g.actor ≠ a := by
    intro sender m id cr hfe g hg hga
    obtain ⟨i, rfl, rfl⟩ := mem_replyFrame hg
    subst hfe
    obtain ⟨m', hm'⟩ := hf hga
    simp only [plain, Frame.msg.injEq, SubMsg.mk.injEq] at hm'
    exact absurd hm'.2.2 (by simp)
  cases h with
  | bank _ _ _ _ _ _ _ _ hmv => exact .inl ⟨norep rfl, .inl ⟨_, by rw [(moveCoins_inv hmv).contracts]; exact ha⟩⟩
  | migrate sender _ _ _ k me s1 _ _ hc =>
    refine .inl ⟨norep rfl, ?_⟩
    by_cases h1 : a = me
    · subst h1
      rw [ha] at hc
      cases hc
      cases k <;> first | exact .inl ⟨_, setContract_self _ _ _⟩ | exact .inr ⟨_, setContract_self _ _ _⟩
    · exact .inl ⟨_, (setContract_ne _ _ h1).trans ha⟩
  | admin sender _ _ _ adm2 me s1 _ hc _ =>
    refine .inl ⟨norep rfl, ?_⟩
    by_cases h1 : a = me
    · subst h1
      rw [ha] at hc
      cases hc
      exact .inl ⟨_, setContract_self _ _ _⟩
    · exact .inl ⟨_, (setContract_ne _ _ h1).trans ha⟩
  | token sender _ _ _ id me _ _ _ _ r _ hmv _ hc | pair sender _ _ _ id me _ _ _ _ r _ hmv _ hc
  | router sender _ _ _ id me _ _ _ _ r _ hmv _ hc =>
    have h1 : a ≠ me := by rintro rfl; rw [ha] at hc; cases hc
    refine .inl ⟨fun g hg hga => ?_,
      .inl ⟨_, ((setContract_ne _ _ h1).trans (congrFun (moveCoins_inv hmv).contracts a)).trans ha⟩⟩
    rcases List.mem_append.mp hg with hg | hg
    · obtain ⟨m, _, rfl⟩ := mem_frames hg
      exact h1 hga.symm
    · exact norep rfl g hg hga
  | factory sender target m funds id me w1 admin s1 s' r hme hmv hr hc hx =>
    by_cases h1 : a = me
    · subst h1
      rw [ha] at hc
      cases hc
      refine .inr ⟨sender, target, m, funds, id, _, s', r, rfl, hme, Factory.execute_inv hx, setContract_self _ _ _, rfl,
        norep rfl, fun t x hq => ?_⟩
      simp only [querier, baseQuerier, lookState, bind_eq_ok, okOr_eq_ok, pure_eq_ok] at hq
      obtain ⟨_, ⟨b, h2, ct, h3, _⟩, _⟩ := hq
      exact ⟨b, h2, by rw [← (moveCoins_inv hmv).contracts, h3]; rfl⟩
    · refine .inl ⟨fun g hg hga => ?_,
        .inl ⟨_, ((setContract_ne _ _ h1).trans (congrFun (moveCoins_inv hmv).contracts a)).trans ha⟩⟩
      rcases List.mem_append.mp hg with hg | hg
      · obtain ⟨m, _, rfl⟩ := mem_frames hg
        exact h1 hga.symm
      · exact norep rfl g hg hga
  | other sender _ _ _ id me _ _ ms _ hmv hc =>
    refine .inl ⟨fun g hg hga => ?_, .inl ⟨_, by rw [(moveCoins_inv hmv).contracts]; exact ha⟩⟩
    rcases List.mem_append.mp hg with hg | hg
    · simp only [List.mem_map] at hg
      obtain ⟨m, _, rfl⟩ := hg
      simp only [Frame.actor] at hga
      subst hga
      rw [ha] at hc; cases hc
    · exact norep rfl g hg hga
  | inst sender admin codeId m funds id kk adm2 w1 s1 fs1 hk hadm hnew hmv hx =>
    have h1 : a ≠ c.addrOf w.next := by rintro rfl; rw [ha] at hnew; cases hnew
    refine .inl ⟨fun g hg hga => ?_,
      .inl ⟨_, ((setContract_ne _ _ h1).trans (congrFun (moveCoins_inv hmv).contracts a)).trans ha⟩⟩
    rcases List.mem_append.mp hg with hg | hg
    · obtain ⟨m, rfl⟩ := callInstantiate_frames hx _ hg
      exact h1 hga.symm
    · exact norep rfl g hg hga
  | replyPair me _ _ admin s1 s' r hc hx =>
    have h1 : a ≠ me := by rintro rfl; rw [ha] at hc; cases hc
    refine .inl ⟨fun g hg hga => ?_, .inl ⟨_, (setContract_ne _ _ h1).trans ha⟩⟩
    obtain ⟨m, _, rfl⟩ := mem_frames hg
    exact h1 hga.symm
  | replyFactory me id created admin s1 s' r hc hx =>
    by_cases h1 : a = me
    · obtain ⟨m, hm⟩ := hf h1.symm; cases hm
    · refine .inl ⟨fun g hg hga => ?_, .inl ⟨_, (setContract_ne _ _ h1).trans ha⟩⟩
      obtain ⟨m, _, rfl⟩ := mem_frames hg
      exact h1 hga.symm
  | replyOther me _ _ _ ms hc =>
    refine .inl ⟨fun g hg hga => ?_, .inl ⟨_, ha⟩⟩
    simp only [List.mem_map] at hg
    obtain ⟨m, _, rfl⟩ := hg
    simp only [Frame.actor] at hga
    subst hga
    rw [ha] at hc; cases hc

/-- Where factories come from. -/
theorem fac_back {c : Chain} {adv : Adv} {n : Nat} {w w' : World} {f : Frame} {fs : List Frame}
    (h : StepI c adv n w f w' fs) {a : Addr} {adm : Option Addr} {s : Factory.State}
    (ha : w'.contracts a = some ⟨adm, .factory s⟩) :
    (∃ s0 adm0, w.contracts a = some ⟨adm0, .factory s0⟩) ∨
      w.contracts a = none ∧ a = c.addrOf w.next ∧ s.pairs = [] ∧ s.tmp = none ∧ (∀ g ∈ fs, g.actor = f.actor) ∧ s.allow = [] := by
  have keep : w'.contracts a = w.contracts a → ∃ s0 adm0, w.contracts a = some ⟨adm0, .factory s0⟩ :=
    fun e => ⟨s, adm, e ▸ ha⟩
  cases h with
  | bank _ _ _ _ _ _ _ _ hmv => exact .inl (keep (by rw [(moveCoins_inv hmv).contracts]))
  | other _ _ _ _ _ _ _ _ _ _ hmv => exact .inl (keep (by rw [(moveCoins_inv hmv).contracts]))
  | replyOther => exact .inl (keep rfl)
  | token _ _ _ _ _ me w1 admin s1 s' r _ hmv _ hc _ | pair _ _ _ _ _ me w1 admin s1 s' r _ hmv _ hc _
  | factory _ _ _ _ _ me w1 admin s1 s' r _ hmv _ hc _ | router _ _ _ _ _ me w1 admin s1 s' r _ hmv _ hc _ =>
    by_cases h1 : a = me
    · subst h1
      simp only [World.setState, setContract_self] at ha
      first
      | cases ha; exact .inl ⟨_, _, hc⟩
      | cases ha
    · exact .inl (keep ((setContract_ne _ _ h1).trans (congrFun (moveCoins_inv hmv).contracts a)))
  | inst sender admin codeId m funds id kk adm2 w1 s1 fs1 hk hadm hnew hmv hx =>
    by_cases h1 : a = c.addrOf w.next
    · subst h1
      simp only [setContract_self] at ha
      cases ha
      refine .inr ⟨hnew, rfl, ?_⟩
      cases kk <;> cases m <;>
        simp only [callInstantiate, bind_eq_ok, pure_eq_ok, Prod.mk.injEq, reduceCtorEq, and_false, exists_false,
          false_and] at hx
      obtain ⟨_, _, ⟨s0, r0⟩, h2, h3, h4⟩ := hx
      simp only [Factory.instantiate, bind_eq_ok, pure_eq_ok, Prod.mk.injEq] at h2
      obtain ⟨_, _, rfl, rfl⟩ := h2
      cases h3
      refine ⟨rfl, rfl, fun g hg => ?_, rfl⟩
      subst h4
      obtain ⟨i, rfl, rfl⟩ := mem_replyFrame (by simpa [frames] using hg)
      rfl
    · exact .inl (keep ((setContract_ne _ _ h1).trans (congrFun (moveCoins_inv hmv).contracts a)))
  | migrate sender _ _ _ k me s1 _ _ hc =>
    by_cases h1 : a = me
    · subst h1
      simp only [World.setState, setContract_self, Option.some.injEq, Contract.mk.injEq] at ha
      obtain ⟨rfl, h2⟩ := ha
      cases k <;> cases s1 <;> simp only [migrateState, reduceCtorEq, CState.factory.injEq] at h2
      exact .inl ⟨_, _, hc⟩
    · exact .inl (keep (setContract_ne _ _ h1))
  | admin sender _ _ _ adm2 me s1 _ hc _ =>
    by_cases h1 : a = me
    · subst h1
      simp only [World.setState, setContract_self] at ha
      cases ha
      exact .inl ⟨_, _, hc⟩
    · exact .inl (keep (setContract_ne _ _ h1))
  | replyPair me _ _ admin s1 s' r hc hx =>
    by_cases h1 : a = me
    · subst h1; simp only [World.setState, setContract_self] at ha; cases ha
    · exact .inl (keep (setContract_ne _ _ h1))
  | replyFactory me _ _ admin s1 s' r hc hx =>
    by_cases h1 : a = me
    · subst h1; simp only [World.setState, setContract_self] at ha; cases ha; exact .inl ⟨_, _, hc⟩
    · exact .inl (keep (setContract_ne _ _ h1))

/-- Nobody acts as an account without a contract that can be a contract's address. -/
theorem Sane.no_actor {c : Chain} {w : World} {fs : List Frame} (h : Sane c w fs) {k : Nat}
    (hn : w.contracts (c.addrOf k) = none) : ∀ g ∈ fs, g.actor ≠ c.addrOf k := by
  intro g hg hga
  rcases h.actors g hg with hu | hs
  · exact hu.1 k hga.symm
  · rw [hga, hn] at hs; cases hs

theorem NoFac.of_ne {a : Addr} {fs : List Frame} (h : ∀ g ∈ fs, g.actor ≠ a) : NoFac a fs :=
  fun g hg hga => absurd hga (h g hg)

theorem NoFac.append {a : Addr} {fs gs : List Frame} (h : NoFac a fs) (h' : NoFac a gs) : NoFac a (fs ++ gs) := by
  intro g hg
  rcases List.mem_append.mp hg with hg | hg
  · exact h g hg
  · exact h' g hg

theorem NoFac.tail {a : Addr} {f : Frame} {fs : List Frame} (h : NoFac a (f :: fs)) : NoFac a fs :=
  fun g hg => h g (List.mem_cons_of_mem _ hg)

/-- The instantiation of a pair. -/
theorem callInstantiate_pairMsg {c : Chain} {adv : Adv} {n : Nat} {me sender : Addr} {k : Kind}
    {as : AssetInfo × AssetInfo} {tc : Nat} {d : Nat × Nat} {req : Requirements} {s : CState} {fs : List Frame}
    (hk : k ≠ .other) (h : callInstantiate c adv n me sender k (.pair as tc d req) = .ok (s, fs)) :
    ∃ ca r0 r1, c.api.canon me = some ca ∧ as.1.toRaw c.api = .ok r0 ∧ as.2.toRaw c.api = .ok r1 ∧
      s = .pair ⟨(r0, r1), ca, [], d, req⟩ ∧
      fs = [.msg me ⟨.inst none tc (.token (Pair.lpInst me)) [], some 1⟩] := by
  cases k <;> simp only [callInstantiate, bind_eq_ok, pure_eq_ok, Prod.mk.injEq, reduceCtorEq, and_false, exists_false] at h
  · obtain ⟨_, _, ⟨s0, r⟩, h1, rfl, rfl⟩ := h
    simp only [Pair.instantiate, bind_eq_ok, pure_eq_ok, Prod.mk.injEq, canonicalize_eq_ok] at h1
    obtain ⟨ca, h1, r0, h2, r1, h3, rfl, rfl⟩ := h1
    exact ⟨ca, r0, r1, h1, h2, h3, rfl, rfl⟩
  · exact absurd rfl hk

theorem chkPI_eq_ok {r : R PairInfo} {i : PairInfo} (h : chkPI r = .ok i) : r = .ok i := by
  unfold chkPI at h
  simp only [bind_eq_ok, pure_eq_ok] at h
  obtain ⟨_, h1, _, _, rfl⟩ := h
  exact h1

theorem FacI.step {c : Chain} (hl : c.Lawful) {adv : Adv} {n : Nat} {w w' : World} {f : Frame} {fs rest : List Frame}
    {a : Addr} {K : Bytes → PairInfoRaw → Prop} (hp : FacI c a K w (f :: rest)) (hE : ¬ ForeignCreate c a w f)
    (h : StepI c adv n w f w' fs) : FacI c a K w' (fs ++ rest) := by
  have hsane := hp.sane.step h
  refine ⟨hsane, fun hn => hp.new ?_, fun adm s' ha' => ?_⟩
  · cases hw : w.contracts a with
    | none => rfl
    | some k => have := isSome_step h (a := a) (by rw [hw]; rfl); rw [hn] at this; cases this
  rcases fac_back h ha' with ⟨s, adm0, ha⟩ | ⟨hnone, rfl, hpairs, htmp, hact, _⟩
  · have R := hp.reg adm0 s ha
    have hplaced : ∀ k e, AMap.get s.pairs k = some e → K k e ∨ Placed c a w' (fs ++ rest) e :=
      fun k e hk => (R.placed k e hk).imp id (fun h1 => h1.step hp.sane h (R.stage.noReadmin ha))
    obtain ⟨ka, hka, hak⟩ := hp.sane.at_addr _ _ ha
    have hst := R.stage
    generalize hl0 : f :: rest = l at hst
    cases hst with
    | idle _ hidle =>
      subst hl0
      rcases new_frames h ha (fun e => by obtain ⟨k, code, rfl⟩ := hidle f (by simp) e; exact ⟨_, rfl⟩) with
        ⟨h1, h2⟩ | ⟨sender, target, m, funds, id, q, s2, r, hfe, hme, hx, ha2, hfs, hrep, hq⟩
      · rw [ha'] at h2
        rcases h2 with ⟨_, h2⟩ | ⟨_, h2⟩
        · cases h2
          exact ⟨R.ok, R.keep, hplaced, .idle _ ((NoFac.of_ne h1).append hidle.tail)⟩
        · cases h2
      · rw [ha'] at ha2
        cases ha2
        have hok := R.ok.eff (Q := fun _ => True) (fun _ _ _ _ _ _ _ => trivial) hx
        subst hfs
        cases hx with
        | update | addNative =>
          exact ⟨hok, R.keep, hplaced, .idle _ ((NoFac.of_ne (by simpa [frames] using hrep)).append hidle.tail)⟩
        | migrate k code =>
          refine ⟨hok, R.keep, hplaced, .idle _ ((NoFac.append ?_ (NoFac.of_ne hrep)).append hidle.tail)⟩
          intro g hg _
          simp only [frames, List.map_cons, List.map_nil, List.mem_singleton] at hg
          exact ⟨_, _, hg⟩
        | create as req d0 d1 r0 r1 hne h0 h1 hr0 hr1 hnew =>
          have hcodes : c.codes s.config.pairCodeId ≠ some .other ∧ c.codes s.config.tokenCodeId ≠ some .other := by
            constructor
            · exact fun hc => hE ⟨sender, target, as, req, funds, id, _, s, hfe, hme, ha, .inl hc⟩
            · exact fun hc => hE ⟨sender, target, as, req, funds, id, _, s, hfe, hme, ha, .inr hc⟩
          exact ⟨hok, R.keep, hplaced, .pair as req (d0, d1) r0 r1 _ _ _ ((NoFac.of_ne hrep).append hidle.tail) hcodes.1
            hcodes.2 hr0 hr1 rfl hnew
            ⟨(Stands.of_decimals hl hq h0 hr0).step h, (Stands.of_decimals hl hq h1 hr1).step h⟩⟩
    | pair as req d r0 r1 pc tc _ hrest hpc htc h0 h1 ht hnew hex =>
      cases hl0
      have hex' := And.intro (hex.1.step h) (hex.2.step h)
      cases h with
      | inst sender admin codeId m funds id kk adm2 w1 s1 fs1 hk hadm hnone hmv hx =>
        have hap : a ≠ c.addrOf w.next := by rintro rfl; rw [ha] at hnone; cases hnone
        have e := (setContract_ne w1 ⟨adm2, s1⟩ hap).trans (congrFun (moveCoins_inv hmv).contracts a)
        rw [ha'] at e
        cases e.trans ha
        obtain ⟨ca, q0, q1, g1, g2, g3, rfl, rfl⟩ := callInstantiate_pairMsg (by rintro rfl; exact hpc hk) hx
        rw [h0] at g2; cases g2
        rw [h1] at g3; cases g3
        simp only [resolveAdmin, bind_eq_ok, pure_eq_ok] at hadm
        obtain ⟨a2, hadm, rfl⟩ := hadm
        rw [hak, hl.resolve_addr, ← hak] at hadm
        cases hadm
        refine ⟨R.ok, R.keep, hplaced, .token _ _ tc _ hrest ?_ htc ⟨setContract_self _ _ _, g1, hl.resolve_addr _, ?_,
          hex'⟩⟩
        · exact fun g hg hga => absurd hga (hp.sane.no_actor hnone g (List.mem_cons_of_mem _ hg))
        · exact ⟨_, ht, rfl, rfl, hnew⟩
    | token p ps tc rest' hrest hset htc hf =>
      cases hl0
      have hex' := And.intro (hf.ex.1.step h) (hf.ex.2.step h)
      cases h with
      | inst sender admin codeId m funds id kk adm2 w1 s1 fs1 hk hadm hnone hmv hx =>
        have hap : a ≠ c.addrOf w.next := by rintro rfl; rw [ha] at hnone; cases hnone
        have hpp : p ≠ c.addrOf w.next := by rintro rfl; rw [hf.at_] at hnone; cases hnone
        have e := (setContract_ne w1 ⟨adm2, s1⟩ hap).trans (congrFun (moveCoins_inv hmv).contracts a)
        rw [ha'] at e
        cases e.trans ha
        have hp' := ((setContract_ne w1 ⟨adm2, s1⟩ hpp).trans (congrFun (moveCoins_inv hmv).contracts p)).trans hf.at_
        simp only [resolveAdmin, Except.ok.injEq] at hadm
        subst hadm
        rcases callInstantiate_lp hx with ⟨t, rfl, hm, _, _, _, rfl⟩ | rfl
        · exact ⟨R.ok, R.keep, hplaced, .link p ps _ t _ hrest hset ⟨hp', hf.addr, hf.valid, hf.tmp, hex'⟩
            (setContract_self _ _ _) hm fun b hb => ⟨hf.ex.1.ne hl hp.sane.at_addr hnone hb,
              hf.ex.2.ne hl hp.sane.at_addr hnone hb⟩⟩
        · exfalso
          cases kk <;> simp only [callInstantiate, bind_eq_ok, pure_eq_ok, Prod.mk.injEq, reduceCtorEq, and_false,
            exists_false, false_and] at hx
          exact htc hk
    | link p ps lt ts rest' hrest hset hf hlt hm hno =>
      cases hl0
      have hex' := And.intro (hf.ex.1.step h) (hf.ex.2.step h)
      cases h with
      | replyFactory me id created admin s1 s' r hc hx => rw [hf.at_] at hc; cases hc
      | replyOther me id created admin ms hc => rw [hf.at_] at hc; cases hc
      | replyPair me id created admin s1 s2 r hc hx =>
        rw [hf.at_] at hc
        cases hc
        have hap : a ≠ p := by rintro rfl; rw [hf.at_] at ha; cases ha
        have hlp : lt ≠ p := by rintro rfl; rw [hf.at_] at hlt; cases hlt
        have e := setContract_ne w ⟨some a, .pair s2⟩ hap
        simp only [World.setState] at ha'
        rw [ha', ha] at e
        cases e
        unfold Pair.reply at hx
        simp only [bind_eq_ok, okOr_eq_ok, canonicalize_eq_ok, pure_eq_ok, Prod.mk.injEq, Option.some.injEq] at hx
        obtain ⟨_, rfl, b, h2, rfl, rfl⟩ := hx
        exact ⟨R.ok, R.keep, hplaced, .record p _ lt ts _ hrest hset
          ⟨setContract_self _ _ _, hf.addr, hf.valid, hf.tmp, hex'⟩ ((setContract_ne _ _ hlp).trans hlt) hm h2
          (hno _ h2)⟩
    | record p ps lt ts rest' hrest hset hf hlt hm hlc hno =>
      cases hl0
      have hap : p ≠ a := by rintro rfl; rw [hf.at_] at ha; cases ha
      have hla : lt ≠ a := by rintro rfl; rw [hlt] at ha; cases ha
      cases h with
      | replyPair me id created admin s1 s2 r hc hx => rw [ha] at hc; cases hc
      | replyOther me id created admin ms hc => rw [ha] at hc; cases hc
      | replyFactory me id created admin s1 s2 r hc hx =>
        rw [ha] at hc
        cases hc
        have e : s2 = s' := by
          simp only [World.setState, setContract_self] at ha'
          cases ha'; rfl
        subst e
        have hok := R.ok.reply hx
        obtain ⟨t, p2, info, lt2, ca, ht, hp2, hq, hlt2, hca, rfl, rfl⟩ := Factory.reply_inv hx
        cases hp2
        have hinfo : ps.toNormal c.api = .ok info := by
          simp only [querier, baseQuerier, lookState, hf.valid, bind_eq_ok, Except.ok.injEq, okOr_eq_ok, pure_eq_ok] at hq
          obtain ⟨_, ⟨_, rfl, _, hk, rfl⟩, hq⟩ := hq
          rw [hf.at_] at hk
          cases hk
          exact chkPI_eq_ok hq
        simp only [PairInfoRaw.toNormal, bind_eq_ok, humanize_eq_ok, pure_eq_ok] at hinfo
        obtain ⟨lth, g1, _, _, _, _, _, _, rfl⟩ := hinfo
        obtain ⟨t2, ht2, g2, g3, g4⟩ := hf.tmp
        rw [ht] at ht2
        cases ht2
        have e1 : lt2 = ps.liquidityToken := by
          have := hl.canon_human _ _ g1
          simp only at hlt2
          rw [this] at hlt2; exact (Option.some.inj hlt2).symm
        have e2 : ca = ps.contractAddr := by rw [hf.addr] at hca; exact (Option.some.inj hca).symm
        subst e1 e2
        have hent : PairInfoRaw.mk t.assetInfos ps.contractAddr ps.liquidityToken t.assetDecimals ps.requirements = ps := by
          rw [g2, g3]
        simp only at hok hplaced ⊢
        rw [hent] at hok hplaced ⊢
        refine ⟨hok, ?_, ?_, .idle _ hrest⟩
        · intro k e hk
          have := R.keep k e hk
          rw [get_smapSet R.ok.sorted, if_neg ?_]
          · exact this
          · rintro rfl; rw [g4] at this; cases this
        · intro k e hk
          rw [get_smapSet R.ok.sorted] at hk
          by_cases hkk : k = t.pairKey
          · rw [if_pos hkk] at hk
            cases hk
            exact .inr ⟨hno, p, hf.addr, .inl ⟨(setContract_ne _ _ hap).trans hf.at_, hset, lt, ts, hlc,
              (setContract_ne _ _ hla).trans hlt, hm⟩⟩
          · rw [if_neg hkk] at hk
            exact hplaced k e hk
  · refine ⟨⟨?_, ?_, ?_⟩, ?_, ?_, .idle _ ?_⟩
    · rw [hpairs]; exact List.Pairwise.nil
    · rw [hpairs]; intro e he; cases he
    · rw [htmp]; intro e he; cases he
    · exact fun k e hk => absurd hk (hp.new hnone k e)
    · rw [hpairs]; intro k e hk; cases hk
    · have hna := hp.sane.no_actor hnone
      refine (NoFac.of_ne fun g hg => ?_).append (NoFac.of_ne fun g hg => hna g (List.mem_cons_of_mem _ hg))
      rw [hact g hg]
      exact hna f (by simp)

/-! ## Entries that existed before the transaction, whatever the codes are -/

/-- What `K` lists is still registered, and the pending creation is for another key, unless none is pending. -/
structure KeepI (a : Addr) (K : Bytes → PairInfoRaw → Prop) (fs : List Frame) (s : Factory.State) : Prop where
  ok : Factory.RegOk (fun _ => True) s
  keep : ∀ k e, K k e → AMap.get s.pairs k = some e
  safe : (∀ t, s.tmp = some t → ∀ e, ¬ K t.pairKey e) ∨ NoFac a fs

theorem KeepI.step {c : Chain} {adv : Adv} {n : Nat} {w w' : World} {f : Frame} {fs rest : List Frame} {a : Addr}
    {adm : Option Addr} {s : Factory.State} {K : Bytes → PairInfoRaw → Prop}
    (ha : w.contracts a = some ⟨adm, .factory s⟩) (hp : KeepI a K (f :: rest) s) (h : StepI c adv n w f w' fs) :
    (∃ adm' s', w'.contracts a = some ⟨adm', .factory s'⟩ ∧ KeepI a K (fs ++ rest) s') ∨
      ∃ adm', w'.contracts a = some ⟨adm', .other⟩ := by
  have exec : ∀ {q : Querier} {sender : Addr} {m : ExecMsg} {s' : Factory.State} {r : Response} {adm : Option Addr},
      Factory.Eff c.api q a s sender m s' r → w'.contracts a = some ⟨adm, .factory s'⟩ →
      ((∀ t, s.tmp = some t → ∀ e, ¬ K t.pairKey e) ∨ ((∀ as req, m ≠ .createPair as req) → NoFac a (fs ++ rest))) →
      ∃ adm' s', w'.contracts a = some ⟨adm', .factory s'⟩ ∧ KeepI a K (fs ++ rest) s' := by
    intro q sender m s' r adm hx ha' hs
    refine ⟨_, s', ha', hp.ok.eff (Q := fun _ => True) (fun _ _ _ _ _ _ _ => trivial) hx, ?_, ?_⟩
    · cases hx <;> exact hp.keep
    · cases hx with
      | update | addNative | migrate => exact hs.imp id (fun h => h (by simp))
      | create as req d0 d1 r0 r1 hne h0 h1 hr0 hr1 hnew =>
        left
        intro t ht e hk
        cases ht
        have := hp.keep _ _ hk
        simp only at this
        rw [hnew] at this
        cases this
  rcases hp.safe with hs | hs
  · obtain ⟨k, adm', h1, h2, _⟩ := facStep h ha
    cases h2 with
    | same => exact .inl ⟨_, s, h1, hp.ok, hp.keep, .inl hs⟩
    | other => exact .inr ⟨_, h1⟩
    | exec sender target m funds id w1 s' r hf hme hm hb hr hx => exact .inl (exec hx h1 (.inl hs))
    | reply id created s' r hf hx =>
      have hok := hp.ok.reply hx
      obtain ⟨t, p, info, lt, ca, ht, _, _, _, _, _, rfl⟩ := Factory.reply_inv hx
      refine .inl ⟨_, _, h1, hok, fun k e hk => ?_, .inl hs⟩
      simp only
      rw [get_smapSet hp.ok.sorted, if_neg (by rintro rfl; exact hs t ht e hk)]
      exact hp.keep k e hk
  · rcases new_frames h ha (fun e => by obtain ⟨k, code, rfl⟩ := hs f (by simp) e; exact ⟨_, rfl⟩) with
      ⟨h1, ⟨_, h2⟩ | ⟨_, h2⟩⟩ | ⟨sender, target, m, funds, id, q, s2, r, hfe, hme, hx, ha2, hfs, hrep, hq⟩
    · exact .inl ⟨_, s, h2, hp.ok, hp.keep, .inr ((NoFac.of_ne h1).append hs.tail)⟩
    · exact .inr ⟨_, h2⟩
    · refine .inl (exec hx ha2 (.inr fun hne => ?_))
      subst hfs
      refine (NoFac.append ?_ (NoFac.of_ne hrep)).append hs.tail
      intro g hg _
      cases hx with
      | update | addNative => simp [frames] at hg
      | migrate k code =>
        simp only [frames, List.map_cons, List.map_nil, List.mem_singleton] at hg
        exact ⟨_, _, hg⟩
      | create => exact absurd rfl (hne _ _)

theorem NoFac.start {c : Chain} {w : World} {a signer : Addr} {k : Contract} (hw : ContractsAt c w)
    (hu : c.IsUser signer) (ha : w.contracts a = some k) (m : CosmosMsg) : NoFac a [.msg signer (plain m)] := by
  refine NoFac.of_ne fun g hg hga => ?_
  simp only [List.mem_singleton] at hg
  subst hg
  obtain ⟨k, _, hk⟩ := hw _ _ ha
  exact hu.1 k (hk.symm.trans hga.symm)

/-- A history from `u` in which `E` never occurs. -/
inductive Without (c : Chain) (E : World → Frame → Prop) (u : World) : World → Prop where
  | refl : Without c E u u
  | tx (adv : Adv) (gas : Nat) (v w : World) (signer : Addr) (m : CosmosMsg) (h : Without c E u v)
      (hu : c.IsUser signer) (hx : runTx c adv gas v signer m = .ok w)
      (hE : ¬ Occurs c adv E gas v [.msg signer (plain m)]) : Without c E u w
  | block (v : World) (b : Block) (h : Without c E u v) : Without c E u { v with block := b }
  | env (v : World) (bank' : Denom → AMap Addr Nat) (h : Without c E u v)
      (hb : ∀ d n, (v.bank d).getD0 (c.addrOf n) ≤ (bank' d).getD0 (c.addrOf n)) :
      Without c E u { v with bank := bank' }

theorem Without.later {c : Chain} {E : World → Frame → Prop} {u v : World} (h : Without c E u v) : Later c u v := by
  induction h with
  | refl => exact .refl _
  | tx adv gas v w signer m h hu hx hE ih => exact .step _ _ _ ih (.tx adv gas _ _ signer m hu hx)
  | block v b h ih => exact .step _ _ _ ih (.block _ b)
  | env v bank' h hb ih => exact .step _ _ _ ih (.env _ bank' hb)

/-- One transaction without a creation with foreign code. -/
theorem FacI.tx {c : Chain} (hl : c.Lawful) {adv : Adv} {gas : Nat} {w w' : World} {signer : Addr} {m : CosmosMsg}
    {a : Addr} {K : Bytes → PairInfoRaw → Prop} (hu : c.IsUser signer) (hp : FacI c a K w [])
    (hx : runTx c adv gas w signer m = .ok w') :
    Occurs c adv (ForeignCreate c a) gas w [.msg signer (plain m)] ∨ FacI c a K w' [] := by
  obtain ⟨n, hr⟩ := runTx_inv hx
  refine occurs_or (P := FacI c a K) (fun n w f w' fs rest hp hE hs => hp.step hl hE hs) ?_ hr
  refine ⟨hp.sane.start hu m, hp.new, fun adm s ha => ?_⟩
  have R := hp.reg adm s ha
  refine ⟨R.ok, R.keep, fun k e hk => (R.placed k e hk).imp id ?_, .idle _ (NoFac.start hp.sane.at_addr hu ha m)⟩
  rintro ⟨h0, p, h1, ⟨h2, _, h3⟩ | h2⟩
  · exact ⟨h0, p, h1, .inl ⟨h2, Settled.start hp.sane.at_addr hu h2 m, h3⟩⟩
  · exact ⟨h0, p, h1, .inr h2⟩

theorem FacI.without {c : Chain} (hl : c.Lawful) {a : Addr} {K : Bytes → PairInfoRaw → Prop} {u v : World}
    (h : Without c (ForeignCreate c a) u v) (hp : FacI c a K u []) : FacI c a K v [] := by
  induction h with
  | refl => exact hp
  | tx adv gas v w signer m h hu hx hE ih => exact (FacI.tx hl hu ih hx).resolve_left hE
  | block v b h ih =>
    have hs := ih.sane
    exact ⟨⟨hs.at_addr, hs.actors, (fun _ _ _ _ _ h => by cases h), hs.linked, hs.addr, hs.silent⟩, ih.new, fun adm s ha =>
      ⟨(ih.reg adm s ha).ok, (ih.reg adm s ha).keep, (ih.reg adm s ha).placed, .idle _ (fun _ h => by cases h)⟩⟩
  | env v bank' h hb ih =>
    have hs := ih.sane
    exact ⟨⟨hs.at_addr, hs.actors, (fun _ _ _ _ _ h => by cases h), hs.linked, hs.addr, hs.silent⟩, ih.new, fun adm s ha =>
      ⟨(ih.reg adm s ha).ok, (ih.reg adm s ha).keep, (ih.reg adm s ha).placed, .idle _ (fun _ h => by cases h)⟩⟩

end Halo
