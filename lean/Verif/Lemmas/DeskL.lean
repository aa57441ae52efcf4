import Verif.Lemmas.OccursL
import Verif.Lemmas.TraceL
import Verif.Lemmas.FactoryL
/-! # The settings of a factory always make sense -/

namespace Halo

/-- The settings of a factory make sense: the owner bytes denote an address, the numbers fit their types. -/
structure OwnerOk (c : Chain) (s : Factory.State) : Prop where
  owner : ∃ o, c.api.human s.config.owner = some o ∧ c.api.canon o = some s.config.owner
  pairCode : s.config.pairCodeId < B64
  tokenCode : s.config.tokenCodeId < B64
  decimals : ∀ d n, AMap.get s.allow d = some n → n < 256

/-- Every factory's settings make sense. -/
def OwnersOk (c : Chain) (w : World) : Prop := ∀ a adm s, w.contracts a = some ⟨adm, .factory s⟩ → OwnerOk c s

theorem OwnersOk.step {c : Chain} (hl : c.Lawful) {adv : Adv} {n : Nat} {w w' : World} {f : Frame}
    {fs rest : List Frame} (hi : Sane c w (f :: rest)) (hw : OwnersOk c w) (h : StepI c adv n w f w' fs) : OwnersOk c w' := by
  intro a adm s ha
  have new : ∀ {b : Bytes}, c.api.canon f.actor = some b → ∃ o, c.api.human b = some o ∧ c.api.canon o = some b := by
    intro b hb
    rcases hi.actors f (by simp) with hu | hk
    · exact ⟨_, hu.human_canon hb, hb⟩
    · obtain ⟨k, hk⟩ := Option.isSome_iff_exists.mp hk
      obtain ⟨j, _, e⟩ := hi.at_addr _ _ hk
      rw [e] at hb
      exact ⟨_, hl.human_canon hb, hb⟩
  have old : ∀ {s0 : Factory.State} {adm0 : Option Addr}, w.contracts a = some ⟨adm0, .factory s0⟩ → OwnerOk c s := by
    intro s0 adm0 h0
    have hok := hw _ _ _ h0
    obtain ⟨k, _, h2, h3, _⟩ := facStep h h0
    rw [ha] at h2
    cases h2
    cases h3 with
    | same => exact hok
    | reply id created s' r hf hx =>
      obtain ⟨_, _, _, _, _, _, _, _, _, _, _, rfl⟩ := Factory.reply_inv hx
      exact ⟨hok.owner, hok.pairCode, hok.tokenCode, hok.decimals⟩
    | exec sender target m funds id w1 s' r hf hme hm hb hr hx =>
      cases hx with
      | update o t p own hs hnone hsome =>
        simp only [ExecMsg.inRange, Bool.and_eq_true] at hr
        have code : ∀ {x : Option Nat} {y : Nat}, optLt B64 x = true → y < B64 → x.getD y < B64 := by
          intro x y hx hy
          cases x with
          | none => exact hy
          | some x => simpa [optLt] using hx
        refine ⟨?_, code hr.2 hok.pairCode, code hr.1 hok.tokenCode, hok.decimals⟩
        cases o with
        | none => cases hnone rfl; exact hok.owner
        | some x =>
          obtain ⟨hv, hcx⟩ := hsome x rfl
          obtain ⟨_, b, h1, h2⟩ := validate_eq_ok.mp hv
          rw [hcx] at h1
          cases h1
          exact ⟨x, h2, hcx⟩
      | create => exact ⟨hok.owner, hok.pairCode, hok.tokenCode, hok.decimals⟩
      | migrate => exact hok
      | addNative d dec b hs hb hpos =>
        simp only [ExecMsg.inRange, decide_eq_true_eq] at hr
        refine ⟨hok.owner, hok.pairCode, hok.tokenCode, fun d' n' h' => ?_⟩
        simp only [AMap.get_set] at h'
        split at h'
        · cases h'; exact hr
        · exact hok.decimals _ _ h'
  cases h with
  | bank _ _ _ _ _ _ _ _ hmv => exact old (by rw [← (moveCoins_inv hmv).contracts]; exact ha)
  | other _ _ _ _ _ _ _ _ _ _ hmv => exact old (by rw [← (moveCoins_inv hmv).contracts]; exact ha)
  | replyOther => exact old ha
  | token _ _ _ _ _ me w1 admin s1 s' r _ hmv _ hc _ | pair _ _ _ _ _ me w1 admin s1 s' r _ hmv _ hc _
  | router _ _ _ _ _ me w1 admin s1 s' r _ hmv _ hc _ =>
    by_cases h1 : a = me
    · subst h1; rw [World.setState, setContract_self] at ha; cases ha
    · rw [World.setState, setContract_ne _ _ h1, (moveCoins_inv hmv).contracts] at ha; exact old ha
  | factory _ _ _ _ _ me w1 admin s1 s' r _ hmv _ hc _ =>
    by_cases h1 : a = me
    · subst h1; exact old hc
    · rw [World.setState, setContract_ne _ _ h1, (moveCoins_inv hmv).contracts] at ha; exact old ha
  | inst sender admin codeId m funds id kk adm2 w1 s1 fs1 hk hadm hnew hmv hx =>
    by_cases h1 : a = c.addrOf w.next
    · subst h1
      rw [setContract_self] at ha
      cases ha
      unfold callInstantiate at hx
      simp only [bind_eq_ok, require_eq_ok] at hx
      obtain ⟨_, hr, hx⟩ := hx
      split at hx <;> try simp only [bind_eq_ok, pure_eq_ok, Prod.mk.injEq, Prod.exists, reduceCtorEq, false_and, and_false,
        exists_false] at hx
      · obtain ⟨s2, r, hx, e, _⟩ := hx
        cases e
        simp only [Factory.instantiate, bind_eq_ok, canonicalize_eq_ok, pure_eq_ok, Prod.mk.injEq] at hx
        obtain ⟨b, hb, rfl, _⟩ := hx
        simp only [InstMsg.inRange, Bool.and_eq_true, decide_eq_true_eq] at hr
        exact ⟨new hb, hr.1, hr.2, fun _ _ h => by cases h⟩
    · rw [setContract_ne _ _ h1, (moveCoins_inv hmv).contracts] at ha; exact old ha
  | migrate sender _ _ _ k me s1 _ _ hc =>
    by_cases h1 : a = me
    · subst h1
      rw [World.setState, setContract_self] at ha
      cases k <;> cases s1 <;> simp only [migrateState, Option.some.injEq, Contract.mk.injEq, reduceCtorEq, and_false,
        CState.factory.injEq] at ha
      obtain ⟨_, rfl⟩ := ha
      exact old hc
    · rw [World.setState, setContract_ne _ _ h1] at ha; exact old ha
  | admin sender _ _ _ adm2 me s1 _ hc _ =>
    by_cases h1 : a = me
    · subst h1
      rw [World.setState, setContract_self] at ha
      cases ha
      exact old hc
    · rw [World.setState, setContract_ne _ _ h1] at ha; exact old ha
  | replyPair me _ _ admin s1 s' r hc hx =>
    by_cases h1 : a = me
    · subst h1; rw [World.setState, setContract_self] at ha; cases ha
    · rw [World.setState, setContract_ne _ _ h1] at ha; exact old ha
  | replyFactory me id created admin s1 s' r hc hx =>
    by_cases h1 : a = me
    · subst h1; exact old hc
    · rw [World.setState, setContract_ne _ _ h1] at ha; exact old ha

theorem owners {c : Chain} (hl : c.Lawful) {w : World} (h : Reachable c w) : OwnersOk c w := by
  induction h with
  | genesis w hg => intro a adm s ha; rw [hg.2 a] at ha; cases ha
  | step w w' hw hs ih =>
    cases hs with
    | tx adv gas _ _ signer m hu hx =>
      obtain ⟨n, hr⟩ := runTx_inv hx
      exact (run_induct (P := fun v fs => Sane c v fs ∧ OwnersOk c v)
        (fun _ _ _ _ _ _ hp hs => ⟨hp.1.step hs, hp.2.step hl hp.1 hs⟩) ⟨hw.sane.start hu m, ih⟩ hr).2
    | block => exact ih
    | env => exact ih

theorem happens_owners {c : Chain} (hl : c.Lawful) {v : World} {f : Frame} (h : Happens c v f) :
    OwnersOk c v ∧ ContractsAt c v ∧ ∀ b o, c.api.canon f.actor = some b → c.api.human b = some o → f.actor = o := by
  obtain ⟨rest, h1, h2⟩ := h.all (P := fun v fs => Sane c v fs ∧ OwnersOk c v)
    (fun w s m hw hu => ⟨hw.sane.start hu m, owners hl hw⟩) (fun _ _ _ _ _ _ _ hp hs => ⟨hp.1.step hs, hp.2.step hl hp.1 hs⟩)
  exact ⟨h2, h1.at_addr, fun b o hb ho => h1.actor_eq hl (by simp) hb ho⟩

end Halo
