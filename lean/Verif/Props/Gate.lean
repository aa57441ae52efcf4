import Verif.Props.Admin
import Verif.Props.Create
import Verif.Props.CreateIff
import Verif.Props.Locked
/-! # Who may start a pair (C96) -/

namespace Halo

/-- A first deposit that the pair at `a`, with storage `s`, lets through: `ProvideLiquidity` from a whitelisted sender that
names at least the two minimums. -/
def Starts (c : Chain) (a : Addr) (s : Pair.State) (f : Frame) : Prop :=
  ∃ sender target assets tol receiver funds id i0 i1,
    f = .msg sender ⟨.exec target (.provideLiquidity assets tol receiver) funds, id⟩ ∧ c.api.resolve target = .ok a ∧
    s.assetInfos.1.toNormal c.api = .ok i0 ∧ s.assetInfos.2.toNormal c.api = .ok i1 ∧
    sender ∈ s.requirements.whitelist ∧
    s.requirements.firstAssetMinimum ≤ PairSite.named i0 assets ∧ s.requirements.secondAssetMinimum ≤ PairSite.named i1 assets

namespace GateL

/-- A call of a pair that goes through. -/
theorem pair_call {c : Chain} {adv : Adv} {n : Nat} {w w' : World} {f : Frame} {fs : List Frame} (h : StepI c adv n w f w' fs)
    {sender : Addr} {target : Str} {m : ExecMsg} {funds : List Coin} {id : Option Nat}
    (hf : f = .msg sender ⟨.exec target m funds, id⟩) {a : Addr} (hres : c.api.resolve target = .ok a) {adm : Option Addr}
    {s : Pair.State} (ha : w.contracts a = some ⟨adm, .pair s⟩) :
    ∃ w1 s' r, moveCoins w sender a funds = .ok w1 ∧
      Pair.execute c.api (querier c (adv.query n) w1) a s sender funds m = .ok (s', r) := by
  cases h with
  | bank | inst | migrate | admin | replyPair | replyFactory | replyOther => cases hf
  | token _ _ _ _ _ me _ _ _ _ _ hme _ _ hc | factory _ _ _ _ _ me _ _ _ _ _ hme _ _ hc
  | router _ _ _ _ _ me _ _ _ _ _ hme _ _ hc | other _ _ _ _ _ me _ _ _ hme _ hc =>
    cases hf; rw [hres] at hme; cases hme; rw [ha] at hc; cases hc
  | pair _ _ _ _ _ me w1 _ _ s' r hme hm _ hc hx =>
    cases hf; rw [hres] at hme; cases hme; rw [ha] at hc; cases hc
    exact ⟨w1, s', r, hm, hx⟩

/-- A deposit that goes through while there are no LP tokens. -/
theorem starts {c : Chain} (hc : c.Lawful) {adv : Adv} {n : Nat} {w w' : World} {f : Frame} {fs : List Frame}
    (h : StepI c adv n w f w' fs) {sender : Addr} {target : Str} {assets : Asset × Asset} {tol : Option Nat}
    {receiver : Option Str} {funds : List Coin} {id : Option Nat}
    (hf : f = .msg sender ⟨.exec target (.provideLiquidity assets tol receiver) funds, id⟩) {a lt : Addr}
    (hres : c.api.resolve target = .ok a) {adm ladm : Option Addr} {s : Pair.State} {t : TokenState}
    (ha : w.contracts a = some ⟨adm, .pair s⟩) (hlt : c.api.human s.liquidityToken = some lt)
    (ht : w.contracts lt = some ⟨ladm, .token t⟩) (h0 : t.totalSupply = 0) : Starts c a s f := by
  obtain ⟨w1, s', r, hm, hx⟩ := pair_call h hf hres ha
  rcases Pair.execute_inv hx with ⟨_, _, _, _, _, e, _⟩ | ⟨_, _, e, _⟩ | ⟨_, _, _, e, hx⟩
  · cases e
  · cases e
  · cases e
    obtain ⟨_, p0, p1, d0, d1, lt', ti, share, hp⟩ := Pair.provide_inv hx
    have e := hp.h_lt
    rw [hlt] at e
    cases e
    have ht1 : w1.contracts lt = some ⟨ladm, .token t⟩ := by rw [(moveCoins_inv hm).contracts]; exact ht
    have hs := tokenInfo_supply (hc.resolve_human hlt) ht1 hp.h_supply
    rw [supplyAt_token ht1, h0] at hs
    have hsh := hp.h_share
    rw [hs] at hsh
    simp only [Pair.shareFor, if_true, bind_eq_ok, require_eq_ok] at hsh
    obtain ⟨_, h1, _, h2, _⟩ := hsh
    obtain ⟨e0, e1, _⟩ := queryPools_eq_ok.mp hp.h_pools
    refine ⟨sender, target, assets, tol, receiver, funds, id, _, _, hf, hres, e0, e1, by simpa using h1, ?_, ?_⟩
    · rw [PairSite.named_eq hp.h_d0]; omega
    · rw [PairSite.named_eq hp.h_d1]; omega

/-- What occurs is in the trace. -/
theorem mem_trace {c : Chain} {adv : Adv} {E : World → Frame → Prop} {n : Nat} {w : World} {fs : List Frame}
    (h : Occurs c adv E n w fs) : ∃ e ∈ trace c adv n w fs, E e.1 e.2 := by
  induction h with
  | here n w f fs w' fs' hE hs => exact ⟨_, by rw [trace_cons hs]; exact List.mem_cons_self, hE⟩
  | later n w f fs w' fs' hs h ih =>
    obtain ⟨e, he, hE⟩ := ih
    exact ⟨e, by rw [trace_cons hs]; exact List.mem_cons_of_mem _ he, hE⟩

/-- What is in the trace of a run that goes through was executed. -/
theorem trace_ok {c : Chain} {adv : Adv} : ∀ {n n' : Nat} {w w' : World} {fs : List Frame}, run c adv n w fs = .ok (n', w') →
    ∀ e ∈ trace c adv n w fs, ∃ n v' fs', StepI c adv n e.1 e.2 v' fs' := by
  intro n
  induction n with
  | zero =>
    intro n' w w' fs h e he
    cases fs <;> simp [trace] at he
  | succ n ih =>
    intro n' w w' fs h e he
    cases fs with
    | nil => simp [trace] at he
    | cons f fs =>
      obtain ⟨m, w1, fs1, hm, hs, hr⟩ := run_cons_inv h
      cases hm
      rw [trace_cons hs, List.mem_cons] at he
      rcases he with rfl | he
      · exact ⟨_, _, _, step_inv hs⟩
      · exact ih hr e he

theorem hist_ok {c : Chain} {u v : World} {tr : List (World × Frame)} (h : Hist c u tr v) :
    ∀ e ∈ tr, ∃ adv n v' fs', StepI c adv n e.1 e.2 v' fs' := by
  induction h with
  | refl => intro e he; cases he
  | tx tr adv gas v w signer m h hu hx ih =>
    intro e he
    rcases List.mem_append.mp he with he | he
    · exact ih e he
    · obtain ⟨n, hr⟩ := runTx_inv hx
      exact ⟨adv, trace_ok hr e he⟩
  | block tr v b h ih => exact ih
  | env tr v bank' h hb ih => exact ih

/-- The pair has storage `s`, is not about to mint, and there are no LP tokens. -/
def Shut (a lt : Addr) (s : Pair.State) (v : World) (fs : List Frame) : Prop :=
  (∃ adm, v.contracts a = some ⟨adm, .other⟩) ∨
    ((∃ adm, v.contracts a = some ⟨adm, .pair s⟩) ∧
      (∀ f ∈ fs, f.actor = a → ∃ m, f = .msg a (plain m) ∧ Pair.OutMsg m ∧ ∀ k r x fu, m ≠ .exec k (.mint r x) fu) ∧
      ∃ t, v.contracts lt = some ⟨none, .token t⟩ ∧ t.mint = some ⟨a, none⟩ ∧ t.totalSupply = 0)

theorem Shut.step {c : Chain} (hc : c.Lawful) {a lt : Addr} {s : Pair.State} (hlt : c.api.human s.liquidityToken = some lt)
    {adv : Adv} {n : Nat} {v v' : World} {f : Frame} {fs rest : List Frame} (hp : Shut a lt s v (f :: rest))
    (hE : ¬ Starts c a s f) (hst : StepI c adv n v f v' fs) : Shut a lt s v' (fs ++ rest) := by
  rcases hp with ⟨_, hp⟩ | ⟨⟨_, h1⟩, h2, t, h3, h4, h5⟩
  · exact .inl ((other_step hst hp).imp fun _ h => h.1)
  · rcases pair_fwd hst h1 (fun e => by obtain ⟨m, rfl, _⟩ := h2 f (by simp) e; exact ⟨_, rfl⟩) with ⟨_, h6, _⟩ | ⟨h6, _⟩
    · have hfr : ∀ g ∈ fs ++ rest, g.actor = a →
          ∃ m, g = .msg a (plain m) ∧ Pair.OutMsg m ∧ ∀ k r x fu, m ≠ .exec k (.mint r x) fu := by
        intro g hg hga
        rcases List.mem_append.mp hg with hg | hg
        · obtain ⟨m, hm, sender, target, em, funds, id, q, r, hf, hres, hx, hmem⟩ :=
            pair_frames_out hst h1 (fun e => by obtain ⟨m, hm, _⟩ := h2 f (by simp) e; exact ⟨m, hm⟩) g hg hga
          refine ⟨m, hm, ?_⟩
          obtain ⟨_, ho⟩ := Pair.execute_out hx
          obtain ⟨m', hm', ho⟩ := ho _ hmem
          have : m = m' := by simpa [plain] using hm'
          subst this
          refine ⟨ho, ?_⟩
          rintro k rc x fu rfl
          rcases Pair.execute_inv hx with ⟨sd, am, bp, ms, dst, rfl, hx⟩ | ⟨sd, am, rfl, hx⟩ | ⟨as, tol, rc, rfl, hx⟩
          · obtain ⟨_, _, o, a', od, ad, r', s', c', hs⟩ := Pair.receive_swap_inv hx
            rw [hs.h_resp] at hmem
            dsimp only at hmem
            split at hmem
            · simp only [List.mem_singleton, plain, SubMsg.mk.injEq, and_true, Asset.intoMsg] at hmem
              split at hmem <;> simp at hmem
            · cases hmem
          · obtain ⟨_, _, _, p0, p1, lt', ti, ratio, r0, r1, hs⟩ := Pair.receive_withdraw_inv (funds := funds) hx
            rw [hs.h_resp] at hmem
            simp only [List.mem_cons, plain, SubMsg.mk.injEq, and_true, List.not_mem_nil, or_false,
              Asset.intoMsg] at hmem
            rcases hmem with hmem | hmem | hmem
            · split at hmem <;> simp at hmem
            · split at hmem <;> simp at hmem
            · simp at hmem
          · exact hE (starts hc hst hf hres h1 hlt h3 h5)
        · exact h2 g (by simp [hg]) hga
      obtain ⟨t1, h8⟩ := tok_noadmin hst h3
      rcases tok_step hst h3 with ⟨_, h7, _⟩ | h7 | ⟨sender, target, m, funds, id, t', r, hf, hres, he, h7, _, _⟩
      · rw [h8] at h7; cases h7
        exact .inr ⟨⟨_, h6⟩, hfr, t, h8, h4, h5⟩
      · rw [h8] at h7; cases h7
      · refine .inr ⟨⟨_, h6⟩, hfr, t', h7, ?_⟩
        have hno : f.actor = a → ∃ cm, f = .msg a (plain cm) ∧ Pair.OutMsg cm ∧
            ∀ k r x fu, cm ≠ .exec k (.mint r x) fu := h2 f (by simp)
        have bad : sender = a → ∃ k fu, Pair.OutMsg (.exec k m fu) ∧ ∀ r x, m ≠ .mint r x := by
          rintro rfl
          obtain ⟨cm, h8, h9, h10⟩ := hno (by rw [hf]; rfl)
          rw [hf] at h8
          simp only [plain, Frame.msg.injEq, SubMsg.mk.injEq, true_and] at h8
          obtain ⟨rfl, _⟩ := h8
          exact ⟨_, _, h9, fun r x e => h10 target r x funds (by rw [e])⟩
        cases he with
        | mint dst x md hx hv hm hs hf hcap hb =>
          rw [h4] at hm
          cases hm
          obtain ⟨_, _, _, h8⟩ := bad hs.symm
          exact absurd rfl (h8 _ _)
        | renounce md hm hs =>
          rw [h4] at hm
          cases hm
          obtain ⟨_, _, h8, _⟩ := bad hs.symm
          exact h8.elim
        | newMinter _ md hm hs =>
          rw [h4] at hm
          cases hm
          obtain ⟨_, _, h8, _⟩ := bad hs.symm
          exact h8.elim
        | burn => exact ⟨h4, by dsimp only; omega⟩
        | burnFrom => exact ⟨h4, by dsimp only; omega⟩
        | _ => exact ⟨h4, h5⟩
    · exact .inl ⟨_, h6⟩

theorem Shut.start {c : Chain} {v : World} (hv : Reachable c v) {a lt : Addr} {s : Pair.State} (h : Shut a lt s v [])
    {signer : Addr} (hu : c.IsUser signer) (m : CosmosMsg) : Shut a lt s v [.msg signer (plain m)] := by
  rcases h with h | ⟨⟨_, h1⟩, _, h2⟩
  · exact .inl h
  · refine .inr ⟨⟨_, h1⟩, fun f hf hfa => ?_, h2⟩
    simp only [List.mem_singleton] at hf
    subst hf
    obtain ⟨k, _, hk⟩ := hv.contractsAt _ _ h1
    exact absurd (hk.symm.trans hfa.symm) (hu.1 k)

end GateL

open GateL

/-- **C96.** As long as a pair has no LP tokens, it gets some only by a deposit of a sender on the whitelist that names at
least both minimums. Without one, whatever else anyone does, however often, there are still none afterwards: the pair is
the pair it was and the supply is zero (or the pair has been migrated to foreign code). Its assets may be anything,
foreign contracts included. -/
theorem C96_gate {c : Chain} (hc : c.Lawful) {w w' : World} (hw : Reachable c w) {tr : List (World × Frame)}
    (h : Hist c w tr w') {a lt : Addr} {adm ladm : Option Addr} {s : Pair.State} {st : TokenState}
    (ha : w.contracts a = some ⟨adm, .pair s⟩) (hlt : c.api.human s.liquidityToken = some lt)
    (ht : w.contracts lt = some ⟨ladm, .token st⟩) (h0 : st.totalSupply = 0) (hno : ∀ e ∈ tr, ¬ Starts c a s e.2) :
    (∃ adm, w'.contracts a = some ⟨adm, .other⟩) ∨
      ((∃ adm, w'.contracts a = some ⟨adm, .pair s⟩) ∧
        ∃ st', w'.contracts lt = some ⟨none, .token st'⟩ ∧ st'.totalSupply = 0) := by
  suffices key : Shut a lt s w' [] from key.imp id fun ⟨h1, _, t, h2, _, h3⟩ => ⟨h1, t, h2, h3⟩
  induction h with
  | refl =>
    obtain ⟨st', h1, h2⟩ : ∃ st', w.contracts lt = some ⟨none, .token st'⟩ ∧ st'.mint = some ⟨a, none⟩ := by
      rcases C29_pair_is_minter hc hw ha hlt with h | h
      · exact h
      · rw [ht] at h; cases h
    rw [ht] at h1
    cases h1
    exact .inr ⟨⟨_, ha⟩, fun _ hf => absurd hf List.not_mem_nil, st, ht, h2, h0⟩
  | tx tr adv gas v w' signer m h hu hx ih =>
    obtain ⟨n, hr⟩ := runTx_inv hx
    have hp := (ih fun e he => hno e (List.mem_append_left _ he)).start (hw.later h.later) hu m
    rcases occurs_or (E := fun _ f => Starts c a s f) (P := Shut a lt s)
      (fun n w f w' fs rest hp hE hst => hp.step hc hlt hE hst) hp hr with ho | hp
    · obtain ⟨e, he, hE⟩ := mem_trace ho
      exact absurd hE (hno e (List.mem_append_right _ he))
    · exact hp
  | block tr v b h ih => exact ih hno
  | env tr v bank' h hb ih => exact ih hno

/-- **C96.** So a pair that was created with an empty whitelist never has any LP tokens: nobody can ever provide
liquidity. -/
theorem C96_nobody {c : Chain} (hc : c.Lawful) {w w' : World} (hw : Reachable c w) (h : Later c w w') {a lt : Addr}
    {adm ladm : Option Addr} {s : Pair.State} {st : TokenState} (ha : w.contracts a = some ⟨adm, .pair s⟩)
    (hlt : c.api.human s.liquidityToken = some lt) (ht : w.contracts lt = some ⟨ladm, .token st⟩)
    (h0 : st.totalSupply = 0) (hwl : s.requirements.whitelist = []) :
    (∃ adm, w'.contracts a = some ⟨adm, .other⟩) ∨
      ((∃ adm, w'.contracts a = some ⟨adm, .pair s⟩) ∧
        ∃ st', w'.contracts lt = some ⟨none, .token st'⟩ ∧ st'.totalSupply = 0) := by
  obtain ⟨tr, h⟩ := h.hist
  refine C96_gate hc hw h ha hlt ht h0 ?_
  rintro e _ ⟨_, _, _, _, _, _, _, _, _, _, _, _, _, hin, _⟩
  rw [hwl] at hin
  cases hin

/-- A pair of the assets `as`, in either order, is created by the factory at `a`. -/
def Creates (c : Chain) (a : Addr) (as : AssetInfo × AssetInfo) (f : Frame) : Prop :=
  ∃ sender target as' req funds id, f = .msg sender ⟨.exec target (.createPair as' req) funds, id⟩ ∧
    c.api.resolve target = .ok a ∧ (as' = as ∨ as' = (as.2, as.1))

/-- **C96.** And there is no second chance: once the factory has answered for two assets, nobody (not its owner, not foreign
code in the middle of a transaction) creates a pair of them again, in either order and with any requirements, and the
factory keeps naming the first one, unless the factory itself has been migrated to foreign code. -/
theorem C96_taken {c : Chain} {w w' : World} (hw : Reachable c w) {tr : List (World × Frame)} (h : Hist c w tr w') {a : Addr}
    {adm : Option Addr} {s : Factory.State} (ha : w.contracts a = some ⟨adm, .factory s⟩) {as : AssetInfo × AssetInfo}
    {info : PairInfo} (hq : Factory.queryPair c.api s as = .ok info) :
    (∀ e ∈ tr, Creates c a as e.2 → ∃ adm, e.1.contracts a = some ⟨adm, .other⟩) ∧
      ((∃ adm, w'.contracts a = some ⟨adm, .other⟩) ∨
        ∃ adm' s', w'.contracts a = some ⟨adm', .factory s'⟩ ∧ Factory.queryPair c.api s' as = .ok info ∧
          Factory.queryPair c.api s' (as.2, as.1) = .ok info) := by
  have hok := (hw.factoriesOk (Q := fun _ => True) (fun _ _ _ _ _ _ _ => trivial)) a adm s ha
  let P : World → List Frame → Prop := fun v fs => (∃ adm s', v.contracts a = some ⟨adm, .factory s'⟩ ∧
      KeepI a (fun k x => AMap.get s.pairs k = some x) fs s') ∨ ∃ adm, v.contracts a = some ⟨adm, .other⟩
  have hstep : ∀ adv n w f w' fs rest, P w (f :: rest) → StepI c adv n w f w' fs → P w' (fs ++ rest) := by
    rintro adv n w f w' fs rest (⟨_, s1, h1, h2⟩ | ⟨_, h1⟩) hst
    · exact h2.step h1 hst
    · exact .inr ((other_step hst h1).imp fun _ h => h.1)
  have hstart : ∀ v signer m, P v [] → c.IsUser signer → P v [.msg signer (plain m)] := by
    intro v signer m hp hu
    refine hp.imp (fun ⟨adm1, s1, h1, h2⟩ => ⟨adm1, s1, h1, h2.ok, h2.keep, .inr ?_⟩) id
    refine NoFac.of_ne fun g hg hga => ?_
    simp only [List.mem_singleton] at hg
    subst hg
    obtain ⟨k, _, hk⟩ := hw.contractsAt _ _ ha
    exact hu.1 k (hk.symm.trans hga.symm)
  have hall : ∀ v, Later c w v → P v [] := by
    intro v hl
    induction hl with
    | refl => exact .inl ⟨_, s, ha, hok, fun _ _ h => h, .inr (fun _ h => by cases h)⟩
    | step v w' hl hs ih =>
      cases hs with
      | tx adv gas _ _ signer m hu hx =>
        obtain ⟨n, hr⟩ := runTx_inv hx
        exact run_induct (P := P) (hstep adv) (hstart v signer m ih hu) hr
      | block => exact ih
      | env => exact ih
  have hq2 := hq
  simp only [Factory.queryPair, bind_eq_ok, okOr_eq_ok] at hq2
  obtain ⟨r0, h0, r1, h1, p, hp, hn⟩ := hq2
  constructor
  · intro e he hcr
    obtain ⟨rest, ⟨_, s1, h2, h3⟩ | h2⟩ := h.all (P := P) (fun v hl _ => hall v hl) hstart hstep e he
    · exfalso
      obtain ⟨adv, n, v', fs', hst⟩ := hist_ok h e he
      obtain ⟨sender, target, as', req, funds, id, hf, hres, hor⟩ := hcr
      obtain ⟨v, f⟩ := e
      dsimp only at h2 hst hf
      have : ∃ q s' r, Factory.createPair c.api q a s1 as' req = .ok (s', r) := by
        cases hst with
        | bank | inst | migrate | admin | replyPair | replyFactory | replyOther => cases hf
        | token _ _ _ _ _ me _ _ _ _ _ hme _ _ hc | pair _ _ _ _ _ me _ _ _ _ _ hme _ _ hc
        | router _ _ _ _ _ me _ _ _ _ _ hme _ _ hc | other _ _ _ _ _ me _ _ _ hme _ hc =>
          cases hf; rw [hres] at hme; cases hme; rw [h2] at hc; cases hc
        | factory _ _ _ _ _ me w1 _ _ s' r hme hm _ hc hx =>
          cases hf; rw [hres] at hme; cases hme; rw [h2] at hc; cases hc
          exact ⟨_, s', r, hx⟩
      obtain ⟨q, s', r, hx⟩ := this
      have hk := h3.keep _ _ hp
      have key : ∀ q, ¬ ∃ r, Factory.createPair c.api q a s1 as req = .ok r := by
        rintro q ⟨r, hx⟩
        simp only [Factory.createPair, bind_eq_ok, require_eq_ok, pure_eq_ok, h0, h1, Except.ok.injEq] at hx
        obtain ⟨_, _, _, _, _, _, _, rfl, _, rfl, _, hnew, _⟩ := hx
        rw [hk] at hnew
        cases hnew
      rcases hor with rfl | rfl
      · exact key q ⟨_, hx⟩
      · exact key q ((C39_create_symmetric c.api q a s1 as.2 as.1 req).mp ⟨_, hx⟩)
    · exact h2
  · rcases hall w' h.later with ⟨_, s', h2, h3⟩ | h2
    · have hq' : Factory.queryPair c.api s' as = .ok info := by
        simp only [Factory.queryPair, bind_eq_ok, okOr_eq_ok]
        exact ⟨r0, h0, r1, h1, p, h3.keep _ _ hp, hn⟩
      exact .inr ⟨_, s', h2, hq', (C39_query_symmetric c.api s' as.2 as.1).trans hq'⟩
    · exact .inl h2

namespace Demo

/-- Somebody creates the pair of A and C and lets nobody start it. -/
def squat : CosmosMsg := .exec fac (.createPair (.token tC, .token tA) ⟨[], 0, 0⟩) []
def squatted : World := worldOf (runs [squat] deployed)
theorem squatted_run : runs [squat] deployed = .ok squatted := worldOf_eq (by decide +kernel)
theorem squatted_reachable : Reachable chain squatted := deployed_reachable.later (later_runs squatted_run)
def pCA : Addr := chain.addrOf 9
def lpCA : Addr := chain.addrOf 10

/-- Tokens can be given to it, and even traded, but there are never LP tokens. -/
def useSquatted : List CosmosMsg :=
  [.exec tA (.transfer pCA 1000) [], .exec tC (.transfer pCA 1000) [], .exec tA (.send pCA 100 (.swap none none none)) []]
def usedSquatted : World := worldOf (runs useSquatted squatted)
theorem usedSquatted_run : runs useSquatted squatted = .ok usedSquatted := worldOf_eq (by decide +kernel)

example : (∃ adm, usedSquatted.contracts pCA = some ⟨adm, .other⟩) ∨
    ((∃ adm s, usedSquatted.contracts pCA = some ⟨adm, .pair s⟩) ∧
      ∃ st', usedSquatted.contracts lpCA = some ⟨none, .token st'⟩ ∧ st'.totalSupply = 0) := by
  obtain ⟨adm, s, h1, h2⟩ := exists_pair (w := squatted) (a := pCA)
    (t := fun p => decide (chain.api.human p.2.liquidityToken = some lpCA) && decide (p.2.requirements.whitelist = [])) (by decide +kernel)
  obtain ⟨ladm, st, h3, h4⟩ := exists_token (w := squatted) (a := lpCA) (t := fun p => decide (p.2.totalSupply = 0)) (by decide +kernel)
  simp only [Bool.and_eq_true, decide_eq_true_eq] at h2 h4
  exact (C96_nobody lawful squatted_reachable (later_runs usedSquatted_run) h1 h2.1 h3 h4 h2.2).imp id
    fun ⟨⟨adm, h⟩, h'⟩ => ⟨⟨adm, s, h⟩, h'⟩

/-- A deposit fails. -/
example : isOk (runs [approve tA pCA, approve tC pCA,
    .exec pCA (.provideLiquidity (⟨.token tA, 10000⟩, ⟨.token tC, 20000⟩) none none) []] squatted) = false := by decide +kernel

/-- The factory stored at an address. -/
theorem exists_factory {w : World} {a : Addr} {t : Factory.State → Bool}
    (h : (match w.contracts a with | some ⟨_, .factory s⟩ => t s | _ => false) = true) :
    ∃ adm s, w.contracts a = some ⟨adm, .factory s⟩ ∧ t s = true := by
  split at h
  · exact ⟨_, _, by assumption, h⟩
  · cases h

def answers (as : AssetInfo × AssetInfo) (s : Factory.State) : Bool := isOk (Factory.queryPair chain.api s as)

/-- The pair of A and B is taken. -/
example : ∀ e ∈ traces trade deployed, Creates chain fac (.token tA, .token tB) e.2 → ∃ adm, e.1.contracts fac = some ⟨adm, .other⟩ := by
  obtain ⟨adm, s, h1, h2⟩ := exists_factory (w := deployed) (a := fac) (t := answers (.token tA, .token tB)) (by decide +kernel)
  unfold answers isOk at h2
  split at h2
  · rename_i info h3
    exact (C96_taken deployed_reachable trade_hist h1 h3).1
  · cases h2

/-- The pair of A and B was started by `user`, who is on its whitelist. -/
def beforeStart : World := worldOf (runs (setup.take 11) genesis)
theorem beforeStart_run : runs (setup.take 11) genesis = .ok beforeStart := worldOf_eq (by decide +kernel)
theorem beforeStart_reachable : Reachable chain beforeStart := genesis_reachable.later (later_runs beforeStart_run)
def afterStart : World := worldOf (runs (setup.drop 11) beforeStart)
theorem afterStart_run : runs (setup.drop 11) beforeStart = .ok afterStart := worldOf_eq (by decide +kernel)

example : ∃ s : Pair.State, (∃ adm, beforeStart.contracts pAB = some ⟨adm, .pair s⟩) ∧
    ∃ e ∈ traces (setup.drop 11) beforeStart, Starts chain pAB s e.2 := by
  obtain ⟨adm, s, h1, h2⟩ := exists_pair (w := beforeStart) (a := pAB)
    (t := fun p => decide (chain.api.human p.2.liquidityToken = some lpAB)) (by decide +kernel)
  obtain ⟨ladm, st, h3, h4⟩ := exists_token (w := beforeStart) (a := lpAB) (t := fun p => decide (p.2.totalSupply = 0)) (by decide +kernel)
  simp only [decide_eq_true_eq] at h2 h4
  refine ⟨s, ⟨_, h1⟩, ?_⟩
  by_contra hn
  push Not at hn
  rcases C96_gate lawful beforeStart_reachable (hist_runs afterStart_run) h1 h2 h3 h4 hn with ⟨_, h⟩ | ⟨_, st', h, h0⟩
  · obtain ⟨_, _, h5, _⟩ := exists_pair (w := afterStart) (a := pAB) (t := fun _ => true) (by decide +kernel)
    rw [h5] at h
    cases h
  · obtain ⟨_, _, h5, h6⟩ := exists_token (w := afterStart) (a := lpAB) (t := fun p => decide (p.2.totalSupply ≠ 0)) (by decide +kernel)
    rw [h] at h5
    cases h5
    simp [h0] at h6

end Demo
end Halo
