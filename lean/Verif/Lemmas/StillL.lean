import Verif.Lemmas.PoolL
import Verif.Lemmas.FactoryL
import Verif.Lemmas.RouterL
/-! # What the project's contracts never do with their own money (helper lemmas for C61) -/

namespace Halo
open _root_.Halo.Spec

/-- Messages that set an allowance of the sender. -/
def Grants : CosmosMsg → Prop
  | .exec _ (.increaseAllowance _ _ _) _ => True
  | .exec _ (.decreaseAllowance _ _ _) _ => True
  | _ => False

theorem Pair.OutMsg.noGrant {m : CosmosMsg} (h : Pair.OutMsg m) : ¬ Grants m := by
  intro hg
  cases m with
  | exec t m f => cases m <;> simp [Grants, Pair.OutMsg] at h hg
  | _ => exact hg

/-- The response of a token message: nothing, or one `Receive` notification without coins. -/
theorem Token.eff_out {api : Api} {blk : Block} {s s' : TokenState} {sender : Addr} {m : ExecMsg} {r : Response}
    (h : Token.Eff api blk s sender m s' r) :
    ∀ sm ∈ r.messages, ∃ t b x hk, sm = plain (.exec t (.receive b x hk) []) := by
  intro sm hs
  cases h <;> simp only [List.not_mem_nil, List.mem_singleton] at hs
  · exact ⟨_, _, _, _, hs⟩
  · exact ⟨_, _, _, _, hs⟩

/-- The response of a factory message: nothing, one instantiation without coins or one migration. -/
theorem Factory.eff_out {api : Api} {q : Querier} {me : Addr} {s s' : Factory.State} {sender : Addr} {m : ExecMsg}
    {r : Response} (h : Factory.Eff api q me s sender m s' r) :
    ∀ sm ∈ r.messages, (∃ a k im id, sm = ⟨.inst a k im [], id⟩) ∨ ∃ t k, sm = plain (.migrate t k) := by
  intro sm hs
  cases h <;> simp only [List.not_mem_nil, List.mem_singleton] at hs
  · exact .inl ⟨_, _, _, _, hs⟩
  · exact .inr ⟨_, _, hs⟩

/-- The router sends no allowance messages. -/
theorem Router.execute_out {api : Api} {q : Querier} {me sender : Addr} {s s' : Router.State} {m : ExecMsg} {r : Response}
    (h : Router.execute api q me s sender m = .ok (s', r)) : ∀ sm ∈ r.messages, ∃ cm, sm = plain cm ∧ ¬ Grants cm := by
  have hops : ∀ (dst : Addr) (ops : List SwapOp), ∀ cm ∈ hopMsgs me dst ops, ¬ Grants cm := by
    intro dst ops
    induction ops with
    | nil => intro cm hc; cases hc
    | cons o t ih =>
      intro cm hc
      cases t with
      | nil => simp only [hopMsgs, List.mem_singleton] at hc; subst hc; exact id
      | cons o' t =>
        rcases List.mem_cons.mp hc with rfl | hc
        · exact id
        · exact ih cm hc
  have ops : ∀ {sender ops mn dst}, executeSwapOperations api q me s sender ops mn dst = .ok (s', r) →
      ∀ sm ∈ r.messages, ∃ cm, sm = plain cm ∧ ¬ Grants cm := by
    intro sender ops mn dst h sm hs
    simp only [executeSwapOperations, bind_eq_ok] at h
    obtain ⟨_, _, _, _, h⟩ := h
    cases mn with
    | none =>
      simp only [pure_eq_ok, Prod.mk.injEq] at h
      obtain ⟨_, rfl⟩ := h
      simp only [List.mem_map] at hs
      obtain ⟨cm, hc, rfl⟩ := hs
      exact ⟨cm, rfl, hops _ _ cm hc⟩
    | some m =>
      simp only [bind_eq_ok, pure_eq_ok, Prod.mk.injEq] at h
      obtain ⟨_, _, _, rfl⟩ := h
      simp only [List.mem_map, List.mem_append, List.mem_singleton] at hs
      obtain ⟨cm, hc | rfl, rfl⟩ := hs
      · exact ⟨cm, rfl, hops _ _ cm hc⟩
      · exact ⟨_, rfl, id⟩
  cases m with
  | receive sd x hk =>
    simp only [execute, receiveCw20, bind_eq_ok] at h
    obtain ⟨_, _, h⟩ := h
    cases hk with
    | executeSwapOperations o mn t =>
      simp only [bind_eq_ok] at h
      obtain ⟨_, _, h⟩ := h
      exact ops h
    | _ => cases h
  | executeSwapOperations o mn t =>
    simp only [execute, bind_eq_ok] at h
    obtain ⟨_, _, h⟩ := h
    exact ops h
  | executeSwapOperation o t =>
    simp only [execute, executeSwapOperation, bind_eq_ok, pure_eq_ok, Prod.mk.injEq] at h
    obtain ⟨_, _, _, _, _, _, _, _, _, _, _, rfl⟩ := h
    intro sm hs
    simp only [List.mem_singleton] at hs
    refine ⟨_, hs, ?_⟩
    unfold assetIntoSwapMsg
    split <;> exact id
  | assertMinimumReceive _ _ _ _ =>
    simp only [execute, assertMinimumReceive, bind_eq_ok, pure_eq_ok, Prod.mk.injEq] at h
    obtain ⟨_, _, _, _, _, _, _, _, _, rfl⟩ := h
    intro sm hs
    cases hs
  | _ => cases h

/-- An address that has never acted except through the project's code. -/
def Hushed (c : Chain) (w : World) (a : Addr) : Prop :=
  (∃ adm k, w.contracts a = some ⟨adm, k⟩ ∧ k ≠ .other) ∨ (∃ n, a = c.addrOf n) ∧ w.contracts a = none

theorem Hushed.back {c : Chain} {adv : Adv} {n : Nat} {w w' : World} {f : Frame} {fs : List Frame}
    (h : StepI c adv n w f w' fs) {a : Addr} (hs : Hushed c w' a) : Hushed c w a := by
  have some_back : ∀ {x : Addr}, w'.contracts x = none → w.contracts x = none := by
    intro x hx
    cases e : w.contracts x with
    | none => rfl
    | some k =>
      have := isSome_step h (a := x) (by rw [e]; rfl)
      rw [hx] at this
      cases this
  rcases hs with ⟨adm, k, hp, hk⟩ | ⟨hn, hnone⟩
  · cases storeStep h with
    | same e => rw [e] at hp; exact .inl ⟨adm, k, hp, hk⟩
    | token me _ s1 _ _ _ _ hc _ _ hc' ho =>
      by_cases h1 : a = me
      · subst h1; exact .inl ⟨_, _, hc, by simp⟩
      · rw [ho a h1] at hp; exact .inl ⟨adm, k, hp, hk⟩
    | pair me _ _ _ hc hc' ho | factory me _ _ _ hc hc' ho | router me _ _ _ hc hc' ho =>
      by_cases h1 : a = me
      · subst h1; exact .inl ⟨_, _, hc, by simp⟩
      · rw [ho a h1] at hp; exact .inl ⟨adm, k, hp, hk⟩
    | migrate me _ kk s1 hc hc' ho =>
      by_cases h1 : a = me
      · subst h1
        rw [hc'] at hp
        simp only [Option.some.injEq, Contract.mk.injEq] at hp
        refine .inl ⟨_, _, hc, ?_⟩
        rintro rfl
        apply hk
        rw [← hp.2]
        cases kk <;> rfl
      · rw [ho a h1] at hp; exact .inl ⟨adm, k, hp, hk⟩
    | admin me _ _ s1 _ _ hc hc' ho =>
      by_cases h1 : a = me
      · subst h1
        rw [hc'] at hp
        cases hp
        exact .inl ⟨_, _, hc, hk⟩
      · rw [ho a h1] at hp; exact .inl ⟨adm, k, hp, hk⟩
    | inst me _ _ _ _ _ _ _ _ hme hnew hx2 hc' ho =>
      by_cases h1 : a = me
      · subst h1; exact .inr ⟨⟨_, hme⟩, hnew⟩
      · rw [ho a h1] at hp; exact .inl ⟨adm, k, hp, hk⟩
  · exact .inr ⟨hn, some_back hnone⟩

/-- The project's contracts never grant allowances. -/
structure Mute (c : Chain) (w : World) (fs : List Frame) : Prop where
  sane : Sane c w fs
  frames : ∀ f ∈ fs, Hushed c w f.actor → ∀ s m, f = .msg s m → ¬ Grants m.msg
  silent : ∀ t adm s a, w.contracts t = some ⟨adm, .token s⟩ → Hushed c w a → ∀ sp, s.allowances.get (a, sp) = none

/-- The messages of a freshly created contract. -/
theorem callInstantiate_noGrant {c : Chain} {adv : Adv} {n : Nat} {me sender : Addr} {k : Kind} {m : InstMsg}
    {s : CState} {fs : List Frame} (h : callInstantiate c adv n me sender k m = .ok (s, fs)) (hs : s ≠ .other) :
    ∀ a sm, Frame.msg a sm ∈ fs → ¬ Grants sm.msg := by
  unfold callInstantiate at h
  simp only [bind_eq_ok] at h
  obtain ⟨_, _, h⟩ := h
  intro a sm hg
  split at h <;> try simp only [bind_eq_ok, pure_eq_ok, Prod.mk.injEq, Prod.exists] at h
  · obtain ⟨_, _, _, rfl⟩ := h; cases hg
  · obtain ⟨_, r, hx, _, rfl⟩ := h
    unfold Pair.instantiate at hx
    simp only [bind_eq_ok, pure_eq_ok, Prod.mk.injEq, canonicalize_eq_ok] at hx
    obtain ⟨ca, h1, _, _, _, _, rfl, rfl⟩ := hx
    simp only [Halo.frames, List.map_cons, List.map_nil, List.mem_singleton, Frame.msg.injEq] at hg
    obtain ⟨_, rfl⟩ := hg
    exact id
  · obtain ⟨_, r, hx, _, rfl⟩ := h
    unfold Factory.instantiate at hx
    simp only [bind_eq_ok, pure_eq_ok, Prod.mk.injEq, canonicalize_eq_ok] at hx
    obtain ⟨ca, h1, _, rfl⟩ := hx
    cases hg
  · obtain ⟨_, r, hx, _, rfl⟩ := h
    unfold Router.instantiate at hx
    simp only [bind_eq_ok, pure_eq_ok, Prod.mk.injEq, canonicalize_eq_ok] at hx
    obtain ⟨ca, h1, _, rfl⟩ := hx
    cases hg
  · obtain ⟨_, _, rfl, _⟩ := h; exact absurd rfl hs
  · cases h

theorem Mute.step {c : Chain} {adv : Adv} {n : Nat} {w w' : World} {f : Frame} {fs rest : List Frame}
    (hi : Mute c w (f :: rest)) (h : StepI c adv n w f w' fs) : Mute c w' (fs ++ rest) where
  sane := hi.sane.step h
  frames := by
    intro g hg hh s m hgm
    have hb := hh.back h
    subst hgm
    rcases List.mem_append.mp hg with hg | hg
    · simp only [Frame.actor] at hh hb
      cases h with
      | bank sender _ _ id => obtain ⟨i, rfl, hc⟩ := mem_replyFrame hg; cases hc
      | token sender _ _ _ id me _ _ _ _ r _ _ _ hc hx =>
        rcases List.mem_append.mp hg with hg | hg
        · obtain ⟨m', hm, hc⟩ := mem_frames hg
          cases hc
          obtain ⟨t, b, x, hk, rfl⟩ := Token.eff_out (Token.execute_inv hx) m hm
          exact fun h => h
        · obtain ⟨i, rfl, hc⟩ := mem_replyFrame hg; cases hc
      | pair sender _ _ _ id me _ _ _ _ r _ _ _ hc hx =>
        rcases List.mem_append.mp hg with hg | hg
        · obtain ⟨m', hm, hc⟩ := mem_frames hg
          cases hc
          obtain ⟨cm, rfl, ho⟩ := (Pair.execute_out hx).2 m hm
          exact ho.noGrant
        · obtain ⟨i, rfl, hc⟩ := mem_replyFrame hg; cases hc
      | factory sender _ _ _ id me _ _ _ _ r _ _ _ hc hx =>
        rcases List.mem_append.mp hg with hg | hg
        · obtain ⟨m', hm, hc⟩ := mem_frames hg
          cases hc
          rcases Factory.eff_out (Factory.execute_inv hx) m hm with ⟨_, _, _, _, rfl⟩ | ⟨_, _, rfl⟩ <;> exact fun h => h
        · obtain ⟨i, rfl, hc⟩ := mem_replyFrame hg; cases hc
      | router sender _ _ _ id me _ _ _ _ r _ _ _ hc hx =>
        rcases List.mem_append.mp hg with hg | hg
        · obtain ⟨m', hm, hc⟩ := mem_frames hg
          cases hc
          obtain ⟨cm, rfl, ho⟩ := Router.execute_out hx m hm
          exact ho
        · obtain ⟨i, rfl, hc⟩ := mem_replyFrame hg; cases hc
      | other sender _ _ _ id me _ _ ms _ _ hc =>
        rcases List.mem_append.mp hg with hg | hg
        · simp only [List.mem_map] at hg
          obtain ⟨m', _, hc'⟩ := hg
          cases hc'
          exfalso
          rcases hb with ⟨adm, k, h1, h2⟩ | ⟨_, h1⟩
          · rw [hc] at h1; cases h1; exact h2 rfl
          · rw [hc] at h1; cases h1
        · obtain ⟨i, rfl, hc⟩ := mem_replyFrame hg; cases hc
      | inst sender admin codeId m' funds id kk adm2 w1 s1 fs1 hk hadm hnew hmv hx =>
        rcases List.mem_append.mp hg with hg | hg
        · refine callInstantiate_noGrant hx ?_ _ _ hg
          rintro rfl
          obtain ⟨_, hc⟩ := callInstantiate_frames hx _ hg
          cases hc
          rcases hh with ⟨adm, k, h1, h2⟩ | ⟨_, h1⟩
          · rw [setContract_self] at h1; cases h1; exact h2 rfl
          · rw [setContract_self] at h1; cases h1
        · obtain ⟨i, rfl, hc⟩ := mem_replyFrame hg; cases hc
      | migrate sender _ _ id | admin sender _ _ id => obtain ⟨i, rfl, hc⟩ := mem_replyFrame hg; cases hc
      | replyPair me _ _ _ _ _ r hc hx =>
        unfold Pair.reply at hx
        simp only [bind_eq_ok, okOr_eq_ok, canonicalize_eq_ok, pure_eq_ok, Prod.mk.injEq] at hx
        obtain ⟨lt, h1, b, h2, rfl, rfl⟩ := hx
        cases hg
      | replyFactory me _ _ _ _ _ r hc hx =>
        obtain ⟨_, _, _, _, _, _, _, _, _, _, rfl, _⟩ := Factory.reply_inv hx
        cases hg
      | replyOther me _ _ _ ms hc =>
        simp only [List.mem_map] at hg
        obtain ⟨m', _, hc'⟩ := hg
        cases hc'
        exfalso
        rcases hb with ⟨adm, k, h1, h2⟩ | ⟨_, h1⟩
        · rw [hc] at h1; cases h1; exact h2 rfl
        · rw [hc] at h1; cases h1
    · exact hi.frames _ (by simp [hg]) hb s m rfl
  silent := by
    intro t adm s a ht hs sp
    have hs0 := hs.back h
    have keep : w'.contracts t = w.contracts t → s.allowances.get (a, sp) = none := fun e =>
      hi.silent t adm s a (by rw [← e]; exact ht) hs0 sp
    cases h with
    | bank _ _ _ _ _ _ _ _ hmv => exact keep (by rw [(moveCoins_inv hmv).contracts])
    | other _ _ _ _ _ _ _ _ _ _ hmv => exact keep (by rw [(moveCoins_inv hmv).contracts])
    | replyOther => exact keep rfl
    | token sender target m funds id me w1 admin s1 s' r _ hmv _ hc hx =>
      by_cases h1 : t = me
      · subst h1
        simp only [World.setState, setContract_self, Option.some.injEq, Contract.mk.injEq, CState.token.injEq] at ht
        obtain ⟨rfl, rfl⟩ := ht
        refine eff_allow (Token.execute_inv hx) (hi.silent _ _ _ a hc hs0) ?_ sp
        rintro rfl
        have hf := hi.frames _ List.mem_cons_self hs0 _ _ rfl
        constructor
        · rintro sp x e rfl; exact hf trivial
        · rintro sp x e rfl; exact hf trivial
      · exact keep ((setContract_ne _ _ h1).trans (congrFun (moveCoins_inv hmv).contracts t))
    | pair _ _ _ _ _ me w1 admin s1 s' r _ hmv _ hc _ | factory _ _ _ _ _ me w1 admin s1 s' r _ hmv _ hc _
    | router _ _ _ _ _ me w1 admin s1 s' r _ hmv _ hc _ =>
      by_cases h1 : t = me
      · subst h1; simp [World.setState] at ht
      · exact keep ((setContract_ne _ _ h1).trans (congrFun (moveCoins_inv hmv).contracts t))
    | inst sender admin codeId m funds id kk adm2 w1 s1 fs1 hk hadm hnew hmv hx =>
      by_cases h1 : t = c.addrOf w.next
      · subst h1
        simp only [setContract_self, Option.some.injEq, Contract.mk.injEq] at ht
        obtain ⟨rfl, rfl⟩ := ht
        rw [callInstantiate_noAllow hx]; rfl
      · exact keep ((setContract_ne _ _ h1).trans (congrFun (moveCoins_inv hmv).contracts t))
    | admin sender _ _ _ adm2 me s1 _ hc _ =>
      by_cases h1 : t = me
      · subst h1
        simp only [World.setState, setContract_self, Option.some.injEq, Contract.mk.injEq] at ht
        obtain ⟨rfl, rfl⟩ := ht
        exact hi.silent t _ s a hc hs0 sp
      · exact keep (setContract_ne _ _ h1)
    | migrate sender _ _ _ k me s1 _ _ hc =>
      by_cases h1 : t = me
      · subst h1
        simp only [World.setState, setContract_self, Option.some.injEq, Contract.mk.injEq] at ht
        obtain ⟨rfl, h2⟩ := ht
        cases k <;> cases s1 <;> simp [migrateState] at h2
      · exact keep (setContract_ne _ _ h1)
    | replyPair me _ _ admin s1 s' r hc hx | replyFactory me _ _ admin s1 s' r hc hx =>
      by_cases h1 : t = me
      · subst h1; simp [World.setState] at ht
      · exact keep (setContract_ne _ _ h1)

theorem Mute.start {c : Chain} {w : World} (hi : Mute c w []) {signer : Addr} (hu : c.IsUser signer) (m : CosmosMsg)
    (hs : Sane c w [.msg signer (plain m)]) : Mute c w [.msg signer (plain m)] := by
  refine ⟨hs, ?_, hi.silent⟩
  intro f hf hh
  simp only [List.mem_singleton] at hf
  subst hf
  exfalso
  rcases hh with ⟨adm, k, h1, _⟩ | ⟨⟨n, h1⟩, _⟩
  · obtain ⟨k, _, hk⟩ := hi.sane.at_addr _ _ h1
    exact hu.1 k hk.symm
  · exact hu.1 n h1.symm

theorem Reachable.mute {c : Chain} {w : World} (h : Reachable c w) : Mute c w [] :=
  reachable_stack (P := Mute c)
    (fun w hg => ⟨(Reachable.genesis w hg).sane, by simp, fun t adm s a ht => by rw [hg.2 t] at ht; cases ht⟩)
    (fun w signer m hi hu => hi.start hu m (hi.sane.start hu m))
    (fun _ _ _ _ _ _ _ hi hs => hi.step hs)
    (fun w b hi => ⟨⟨hi.sane.at_addr, by simp, by simp, hi.sane.linked, hi.sane.addr, hi.sane.silent⟩, by simp, hi.silent⟩)
    (fun w bank' _ hi => ⟨⟨hi.sane.at_addr, by simp, by simp, hi.sane.linked, hi.sane.addr, hi.sane.silent⟩, by simp,
      hi.silent⟩) h

end Halo
