import Verif.Lemmas.ActorL
/-! # Pairs and their LP tokens: an invariant of all worlds and message stacks (helper lemmas) -/

namespace Halo

/-- A history invariant over worlds and stacks. -/
theorem reachable_stack {c : Chain} {P : World → List Frame → Prop} (hgen : ∀ w, Genesis w → P w [])
    (hstart : ∀ w signer m, P w [] → c.IsUser signer → P w [.msg signer (plain m)])
    (hstep : ∀ adv n w f w' fs rest, P w (f :: rest) → StepI c adv n w f w' fs → P w' (fs ++ rest))
    (hblock : ∀ w b, P w [] → P { w with block := b } [])
    (henv : ∀ w bank', (∀ d n, (w.bank d).getD0 (c.addrOf n) ≤ (bank' d).getD0 (c.addrOf n)) → P w [] →
      P { w with bank := bank' } []) {w : World} (h : Reachable c w) : P w [] := by
  induction h with
  | genesis w hg => exact hgen w hg
  | step w w' _ hs ih =>
    cases hs with
    | tx adv gas _ _ signer m hu hx =>
      obtain ⟨n, hr⟩ := runTx_inv hx
      exact run_induct (P := P) (fun n w f w' fs rest => hstep adv n w f w' fs rest) (hstart _ _ _ ih hu) hr
    | block _ b => exact hblock _ b ih
    | env _ bank' hb => exact henv _ bank' hb ih

namespace Pair

/-- The messages a pair emits from `execute`. -/
def OutMsg : CosmosMsg → Prop
  | .exec _ (.transfer _ _) f => f = []
  | .exec _ (.transferFrom _ _ _) f => f = []
  | .exec _ (.mint _ _) f => f = []
  | .exec _ (.burn _) f => f = []
  | .bankSend _ _ => True
  | _ => False

theorem outMsg_intoMsg (x : Asset) (r : Addr) : OutMsg (x.intoMsg r) := by
  unfold Asset.intoMsg
  split <;> simp [OutMsg]

theorem outMsg_collect {me sender : Addr} {i : AssetInfo} {d : Nat} {m : CosmosMsg}
    (h : m ∈ collectMsg me sender i d) : OutMsg m := by
  unfold collectMsg at h
  split at h
  · simp only [List.mem_singleton] at h; subst h; simp [OutMsg]
  · cases h

/-- A pair's `execute` leaves its storage alone and emits only such messages, without replies. -/
theorem execute_out {api : Api} {q : Querier} {me : Addr} {st st' : State} {caller : Addr} {funds : List Coin}
    {m : ExecMsg} {r : Response} (h : execute api q me st caller funds m = .ok (st', r)) :
    st' = st ∧ ∀ sm ∈ r.messages, ∃ cm, sm = plain cm ∧ OutMsg cm := by
  rcases execute_inv h with ⟨sender, amount, bp, ms, dst, rfl, h⟩ | ⟨sender, amount, rfl, h⟩ |
      ⟨assets, tol, receiver, rfl, h⟩
  · obtain ⟨rfl, _, o, a, od, ad, r', s, c, hs⟩ := receive_swap_inv h
    refine ⟨rfl, fun sm hsm => ?_⟩
    rw [hs.h_resp] at hsm
    dsimp only at hsm
    split at hsm
    · simp only [List.mem_singleton] at hsm
      exact ⟨_, hsm, outMsg_intoMsg _ _⟩
    · cases hsm
  · obtain ⟨rfl, _, _, p0, p1, lt, ti, ratio, r0, r1, hs⟩ := receive_withdraw_inv (funds := funds) h
    refine ⟨rfl, fun sm hsm => ?_⟩
    rw [hs.h_resp] at hsm
    simp only [List.mem_cons, List.not_mem_nil, or_false] at hsm
    rcases hsm with rfl | rfl | rfl
    · exact ⟨_, rfl, outMsg_intoMsg _ _⟩
    · exact ⟨_, rfl, outMsg_intoMsg _ _⟩
    · exact ⟨_, rfl, rfl⟩
  · obtain ⟨rfl, p0, p1, d0, d1, lt, ti, share, hs⟩ := provide_inv h
    refine ⟨rfl, fun sm hsm => ?_⟩
    rw [hs.h_resp] at hsm
    simp only [List.mem_map, List.mem_append, List.mem_singleton] at hsm
    obtain ⟨cm, hcm, rfl⟩ := hsm
    refine ⟨cm, rfl, ?_⟩
    rcases hcm with (hcm | hcm) | rfl
    · exact outMsg_collect hcm
    · exact outMsg_collect hcm
    · rfl

end Pair

/-- The contract at `lt` can be the LP token of the pair `a`: a halo token that only `a` can mint, without a cap, and
that nobody can migrate; or foreign code, if the pair was created with a foreign token code. -/
def LPat (w : World) (a lt : Addr) : Prop :=
  (∃ s, w.contracts lt = some ⟨none, .token s⟩ ∧ s.mint = some ⟨a, none⟩) ∨ w.contracts lt = some ⟨none, .other⟩

/-- The frames that may run on behalf of a pair. -/
inductive PairFrame (w : World) (a : Addr) : Frame → Prop where
  | out (m : CosmosMsg) (h : Pair.OutMsg m) : PairFrame w a (.msg a (plain m))
  | inst (code : Nat) : PairFrame w a (.msg a ⟨.inst none code (.token (Pair.lpInst a)) [], some 1⟩)
  | reply (lt : Addr) (h : LPat w a lt) : PairFrame w a (.reply a 1 (some lt))

/-- The frames through which a new pair learns its LP token. -/
inductive Pending (a : Addr) : Frame → Prop where
  | inst (code : Nat) : Pending a (.msg a ⟨.inst none code (.token (Pair.lpInst a)) [], some 1⟩)
  | reply (lt : Addr) : Pending a (.reply a 1 (some lt))

/-- The pair has recorded its LP token. -/
def Linked (c : Chain) (w : World) (a : Addr) (s : Pair.State) : Prop :=
  ∃ lt, LPat w a lt ∧ c.api.canon lt = some s.liquidityToken

/-- Nobody acts, or has acted, as a pair or as a contract that does not exist yet, to grant allowances. -/
def Silent (c : Chain) (w : World) (a : Addr) : Prop :=
  (∃ adm s, w.contracts a = some ⟨adm, .pair s⟩) ∨ (∃ n, a = c.addrOf n) ∧ w.contracts a = none

/-- The invariant. -/
structure Sane (c : Chain) (w : World) (fs : List Frame) : Prop where
  at_addr : ContractsAt c w
  actors : ∀ f ∈ fs, c.IsUser f.actor ∨ (w.contracts f.actor).isSome = true
  pairFrames : ∀ a adm s, w.contracts a = some ⟨adm, .pair s⟩ → ∀ f ∈ fs, f.actor = a → PairFrame w a f
  linked : ∀ a adm s, w.contracts a = some ⟨adm, .pair s⟩ → Linked c w a s ∨ ∃ f ∈ fs, Pending a f
  addr : ∀ a adm s, w.contracts a = some ⟨adm, .pair s⟩ → c.api.canon a = some s.contractAddr
  silent : ∀ t adm s a, w.contracts t = some ⟨adm, .token s⟩ → Silent c w a → ∀ sp, s.allowances.get (a, sp) = none

/-- The acting account of a frame that ran is not silent, unless it is a pair running one of its own frames. -/
theorem Sane.actor_not_silent {c : Chain} {w : World} {f : Frame} {rest : List Frame} (h : Sane c w (f :: rest))
    (hs : Silent c w f.actor) : PairFrame w f.actor f := by
  rcases hs with ⟨adm, s, hp⟩ | ⟨⟨n, hn⟩, hnone⟩
  · exact h.pairFrames _ adm s hp f (by simp) rfl
  · rcases h.actors f (by simp) with hu | hc
    · exact absurd hn.symm (hu.1 n)
    · rw [hnone] at hc; cases hc

/-- A step keeps LP tokens what they are. -/
theorem LPat.step {c : Chain} {adv : Adv} {n : Nat} {w w' : World} {f : Frame} {fs rest : List Frame}
    (hi : Sane c w (f :: rest)) (h : StepI c adv n w f w' fs) {a lt : Addr} {adm : Option Addr} {s : Pair.State}
    (hp : w.contracts a = some ⟨adm, .pair s⟩) (hl : LPat w a lt) : LPat w' a lt := by
  rcases hl with ⟨ts, ht, hm⟩ | ho
  · left
    cases h with
    | bank _ _ _ _ _ _ _ _ hmv => exact ⟨ts, by rw [(moveCoins_inv hmv).contracts]; exact ht, hm⟩
    | other _ _ _ _ _ _ _ _ _ _ hmv => exact ⟨ts, by rw [(moveCoins_inv hmv).contracts]; exact ht, hm⟩
    | replyOther => exact ⟨ts, ht, hm⟩
    | token sender target m funds id me w1 admin s1 s' r hme hmv hr hc hx =>
      by_cases h1 : lt = me
      · subst h1
        rw [ht] at hc
        cases hc
        refine ⟨s', setContract_self _ _ _, ?_⟩
        have he := Token.execute_inv hx
        cases he with
        | renounce md hmd hs =>
          rw [hm] at hmd; cases hmd
          have hf := hi.pairFrames _ _ _ hp _ (List.mem_cons_self) hs.symm
          cases hf with
          | out _ ho => exact absurd ho (by simp [Pair.OutMsg])
        | newMinter x md hmd hs =>
          rw [hm] at hmd; cases hmd
          have hf := hi.pairFrames _ _ _ hp _ (List.mem_cons_self) hs.symm
          cases hf with
          | out _ ho => exact absurd ho (by simp [Pair.OutMsg])
        | _ => exact hm
      · exact ⟨ts, ((setContract_ne _ _ h1).trans (congrFun (moveCoins_inv hmv).contracts lt)).trans ht, hm⟩
    | pair _ _ _ _ _ me w1 admin s s' r _ hmv _ hc _ | factory _ _ _ _ _ me w1 admin s s' r _ hmv _ hc _
    | router _ _ _ _ _ me w1 admin s s' r _ hmv _ hc _ =>
      have h1 : lt ≠ me := by rintro rfl; rw [ht] at hc; cases hc
      exact ⟨ts, ((setContract_ne _ _ h1).trans (congrFun (moveCoins_inv hmv).contracts lt)).trans ht, hm⟩
    | inst sender admin codeId m funds id kk adm2 w1 s fs hk hadm hnew hmv hx =>
      have h1 : lt ≠ c.addrOf w.next := by rintro rfl; rw [hnew] at ht; cases ht
      exact ⟨ts, ((setContract_ne _ _ h1).trans (congrFun (moveCoins_inv hmv).contracts lt)).trans ht, hm⟩
    | migrate sender _ _ _ kk me s _ _ hc =>
      have h1 : lt ≠ me := by rintro rfl; rw [ht] at hc; cases hc
      exact ⟨ts, (setContract_ne _ _ h1).trans ht, hm⟩
    | admin sender _ _ _ adm2 me s _ hc _ =>
      have h1 : lt ≠ me := by rintro rfl; rw [ht] at hc; cases hc
      exact ⟨ts, (setContract_ne _ _ h1).trans ht, hm⟩
    | replyPair me _ _ admin s s' r hc hx | replyFactory me _ _ admin s s' r hc hx =>
      have h1 : lt ≠ me := by rintro rfl; rw [ht] at hc; cases hc
      exact ⟨ts, (setContract_ne _ _ h1).trans ht, hm⟩
  · right
    obtain ⟨adm', h1, _, h2⟩ :=
      (TokStep.of_step (ρ := fun _ _ => True) (fun _ => trivial) (fun _ _ _ _ _ _ _ _ => trivial) h) lt none _ ho
    have e := h1 rfl
    subst e
    exact h2 rfl

/-- What instantiation stores and sends. -/
theorem callInstantiate_pair {c : Chain} {adv : Adv} {n : Nat} {me sender : Addr} {k : Kind} {m : InstMsg}
    {s : Pair.State} {fs : List Frame} (h : callInstantiate c adv n me sender k m = .ok (.pair s, fs)) :
    c.api.canon me = some s.contractAddr ∧
    ∃ code, fs = [.msg me ⟨.inst none code (.token (Pair.lpInst me)) [], some 1⟩] := by
  unfold callInstantiate at h
  simp only [bind_eq_ok] at h
  obtain ⟨_, _, h⟩ := h
  split at h <;> try simp only [bind_eq_ok, pure_eq_ok, Prod.mk.injEq, Prod.exists] at h
  · obtain ⟨_, _, h, _⟩ := h; cases h
  · obtain ⟨_, _, h, h1, rfl⟩ := h
    cases h1
    unfold Pair.instantiate at h
    simp only [bind_eq_ok, pure_eq_ok, Prod.mk.injEq, canonicalize_eq_ok] at h
    obtain ⟨ca, h1, _, _, _, _, rfl, rfl⟩ := h
    exact ⟨h1, _, rfl⟩
  · obtain ⟨_, _, _, h, _⟩ := h; cases h
  · obtain ⟨_, _, _, h, _⟩ := h; cases h
  · obtain ⟨_, _, h, _⟩ := h; cases h
  · cases h

/-- A new token has no allowances. -/
theorem callInstantiate_noAllow {c : Chain} {adv : Adv} {n : Nat} {me sender : Addr} {k : Kind} {m : InstMsg}
    {s : TokenState} {fs : List Frame} (h : callInstantiate c adv n me sender k m = .ok (.token s, fs)) :
    s.allowances = [] := by
  obtain ⟨t, _, _, _, h, _⟩ := callInstantiate_token h
  unfold Token.instantiate at h
  cases hm : t.mint <;> cases hc : Token.getCapInst t <;>
    simp only [hm, hc, bind_eq_ok, pure_eq_ok, Prod.exists] at h
  · obtain ⟨_, _, _, _, _, _, _, _, _, rfl⟩ := h; rfl
  · obtain ⟨_, _, _, _, _, _, _, _, _, rfl⟩ := h; rfl
  · obtain ⟨_, _, _, _, _, _, _, _, _, _, _, rfl⟩ := h; rfl
  · obtain ⟨_, _, _, _, _, _, _, _, _, _, _, rfl⟩ := h; rfl

/-- The contract created for a pair's LP message. -/
theorem callInstantiate_lp {c : Chain} {adv : Adv} {n : Nat} {me sender a : Addr} {k : Kind}
    {s : CState} {fs : List Frame}
    (h : callInstantiate c adv n me sender k (.token (Pair.lpInst a)) = .ok (s, fs)) :
    (∃ t, s = .token t ∧ t.mint = some ⟨a, none⟩ ∧ t.balances = [] ∧ t.totalSupply = 0 ∧ t.allowances = [] ∧ fs = []) ∨
      s = .other := by
  unfold callInstantiate at h
  simp only [bind_eq_ok] at h
  obtain ⟨_, _, h⟩ := h
  split at h <;> try simp only [bind_eq_ok, pure_eq_ok, Prod.mk.injEq, Prod.exists] at h
  · rename_i t heq
    cases heq
    obtain ⟨ts, h, rfl, rfl⟩ := h
    left
    unfold Token.instantiate at h
    simp only [Token.getCapInst, Pair.lpInst, Option.bind_some, Token.createAccounts, Token.createLoop, bind_eq_ok,
      pure_eq_ok, Prod.exists] at h
    obtain ⟨_, _, b, sup, h1, _, _, mt, h2, _, rfl, rfl⟩ := h
    obtain ⟨_, _, h1⟩ := h1
    have h3 := (Token.validate_self h2).1
    subst h3
    cases h1
    exact ⟨_, rfl, rfl, rfl, rfl, rfl, rfl⟩
  · rename_i heq; cases heq
  · rename_i heq; cases heq
  · rename_i heq; cases heq
  · obtain ⟨_, _, rfl, _⟩ := h; exact .inr rfl
  · cases h

/-- A token message that sets an allowance of `a`, while `a` is the caller. -/
theorem eff_allow {api : Api} {blk : Block} {s s' : TokenState} {sender a : Addr} {m : ExecMsg}
    {r : Response} (h : Token.Eff api blk s sender m s' r) (h0 : ∀ sp, s.allowances.get (a, sp) = none)
    (hn : sender = a → (∀ sp x e, m ≠ .increaseAllowance sp x e) ∧ (∀ sp x e, m ≠ .decreaseAllowance sp x e)) :
    ∀ sp, s'.allowances.get (a, sp) = none := by
  intro sp
  cases h with
  | transfer | send | burn | mint | renounce | newMinter => exact h0 sp
  | increase sp' x e al =>
    by_cases hs : sender = a
    · exact absurd rfl ((hn hs).1 _ _ _)
    · rw [AMap.get_set_ne _ _ (fun h => hs (Prod.mk.inj h).1.symm)]; exact h0 sp
  | decrease sp' x e al =>
    by_cases hs : sender = a
    · exact absurd rfl ((hn hs).2 _ _ _)
    · rw [AMap.get_set_ne _ _ (fun h => hs (Prod.mk.inj h).1.symm)]; exact h0 sp
  | decreaseZero sp' x e =>
    rw [AMap.get_erase]
    split
    · rfl
    · exact h0 sp
  | transferFrom o dst x al _ _ ha | sendFrom o dst x _ al _ _ ha | burnFrom o x al _ ha =>
    by_cases ho : o = a
    · subst ho; rw [h0] at ha; cases ha
    · rw [AMap.get_set_ne _ _ (fun h => ho (Prod.mk.inj h).1.symm)]; exact h0 sp

/-- Being silent is inherited backwards. -/
theorem Silent.back {c : Chain} {adv : Adv} {n : Nat} {w w' : World} {f : Frame} {fs : List Frame}
    (h : StepI c adv n w f w' fs) {a : Addr} (hs : Silent c w' a) : Silent c w a := by
  have some_back : ∀ {x : Addr}, w'.contracts x = none → w.contracts x = none := by
    intro x hx
    cases storeStep h with
    | same e => rw [e] at hx; exact hx
    | token me _ _ _ _ _ _ hc _ _ hc' ho | pair me _ _ _ hc hc' ho | factory me _ _ _ hc hc' ho
    | router me _ _ _ hc hc' ho | migrate me _ _ _ hc hc' ho | admin me _ _ _ _ _ hc hc' ho =>
      by_cases h1 : x = me
      · subst h1; rw [hc'] at hx; cases hx
      · rw [ho x h1] at hx; exact hx
    | inst me _ _ _ _ _ _ _ _ hme hnew hx2 hc' ho =>
      by_cases h1 : x = me
      · subst h1; exact hnew
      · rw [ho x h1] at hx; exact hx
  rcases hs with ⟨adm, s, hp⟩ | ⟨hn, hnone⟩
  · cases storeStep h with
    | same e => rw [e] at hp; exact .inl ⟨adm, s, hp⟩
    | token me _ _ _ _ _ _ hc _ _ hc' ho | factory me _ _ _ hc hc' ho
    | router me _ _ _ hc hc' ho =>
      by_cases h1 : a = me
      · subst h1; rw [hc'] at hp; cases hp
      · rw [ho a h1] at hp; exact .inl ⟨adm, s, hp⟩
    | pair me _ s1 _ hc hc' ho =>
      by_cases h1 : a = me
      · subst h1; exact .inl ⟨_, s1, hc⟩
      · rw [ho a h1] at hp; exact .inl ⟨adm, s, hp⟩
    | migrate me _ k s1 hc hc' ho =>
      by_cases h1 : a = me
      · subst h1
        rw [hc'] at hp
        simp only [Option.some.injEq, Contract.mk.injEq] at hp
        have h2 := hp.2
        cases k <;> cases s1 <;> simp only [migrateState, reduceCtorEq] at h2
        exact .inl ⟨_, _, hc⟩
      · rw [ho a h1] at hp; exact .inl ⟨adm, s, hp⟩
    | admin me _ _ s1 _ _ hc hc' ho =>
      by_cases h1 : a = me
      · subst h1
        rw [hc'] at hp
        cases hp
        exact .inl ⟨_, _, hc⟩
      · rw [ho a h1] at hp; exact .inl ⟨adm, s, hp⟩
    | inst me _ _ _ _ _ _ _ _ hme hnew hx2 hc' ho =>
      by_cases h1 : a = me
      · subst h1; exact .inr ⟨⟨_, hme⟩, hnew⟩
      · rw [ho a h1] at hp; exact .inl ⟨adm, s, hp⟩
  · exact .inr ⟨hn, some_back hnone⟩

theorem isSome_step {c : Chain} {adv : Adv} {n : Nat} {w w' : World} {f : Frame} {fs : List Frame}
    (h : StepI c adv n w f w' fs) {a : Addr} (ha : (w.contracts a).isSome = true) :
    (w'.contracts a).isSome = true := by
  cases storeStep h with
  | same e => rw [e]; exact ha
  | token me _ _ _ _ _ _ hc _ _ hc' ho | pair me _ _ _ hc hc' ho | factory me _ _ _ hc hc' ho
  | router me _ _ _ hc hc' ho | migrate me _ _ _ hc hc' ho | admin me _ _ _ _ _ hc hc' ho | inst me _ _ _ _ _ _ _ _ _ _ _ hc' ho =>
    by_cases h1 : a = me
    · subst h1; rw [hc']; rfl
    · rw [ho a h1]; exact ha

/-- Where pairs come from: the same pair before the step, or a fresh instantiation. -/
theorem pair_back {c : Chain} {adv : Adv} {n : Nat} {w w' : World} {f : Frame} {fs : List Frame}
    (h : StepI c adv n w f w' fs) {a : Addr} {adm : Option Addr} {s : Pair.State}
    (hp : w'.contracts a = some ⟨adm, .pair s⟩) :
    (∃ s0 adm0, w.contracts a = some ⟨adm0, .pair s0⟩ ∧ s0.contractAddr = s.contractAddr ∧
      (s0 = s ∨ ∃ id created, f = .reply a id created ∧ fs = [] ∧ ∃ lt, created = some lt ∧
        c.api.canon lt = some s.liquidityToken)) ∨
    (w.contracts a = none ∧ c.api.canon a = some s.contractAddr ∧
      ∃ code id cr, fs = .msg a ⟨.inst none code (.token (Pair.lpInst a)) [], some 1⟩ ::
        replyFrame f.actor id cr) := by
  have keep : w'.contracts a = w.contracts a → (∃ s0 adm0, w.contracts a = some ⟨adm0, .pair s0⟩ ∧
      s0.contractAddr = s.contractAddr ∧
      (s0 = s ∨ ∃ id created, f = .reply a id created ∧ fs = [] ∧ ∃ lt, created = some lt ∧
        c.api.canon lt = some s.liquidityToken)) :=
    fun e => ⟨s, adm, by rw [← e]; exact hp, rfl, .inl rfl⟩
  cases h with
  | bank _ _ _ _ _ _ _ _ hmv => exact .inl (keep (by rw [(moveCoins_inv hmv).contracts]))
  | other _ _ _ _ _ _ _ _ _ _ hmv => exact .inl (keep (by rw [(moveCoins_inv hmv).contracts]))
  | replyOther => exact .inl (keep rfl)
  | token _ _ _ _ _ me w1 admin s1 s' r _ hmv _ hc _ | factory _ _ _ _ _ me w1 admin s1 s' r _ hmv _ hc _
  | router _ _ _ _ _ me w1 admin s1 s' r _ hmv _ hc _ =>
    by_cases h1 : a = me
    · subst h1; simp [World.setState] at hp
    · exact .inl (keep ((setContract_ne _ _ h1).trans (congrFun (moveCoins_inv hmv).contracts a)))
  | pair _ _ _ _ _ me w1 admin s1 s' r _ hmv _ hc hx =>
    by_cases h1 : a = me
    · subst h1
      simp only [World.setState, setContract_self, Option.some.injEq, Contract.mk.injEq, CState.pair.injEq] at hp
      obtain ⟨rfl, rfl⟩ := hp
      have e := (Pair.execute_out hx).1
      subst e
      exact .inl ⟨_, _, hc, rfl, .inl rfl⟩
    · exact .inl (keep ((setContract_ne _ _ h1).trans (congrFun (moveCoins_inv hmv).contracts a)))
  | inst sender admin codeId m funds id kk adm2 w1 s1 fs1 hk hadm hnew hmv hx =>
    by_cases h1 : a = c.addrOf w.next
    · subst h1
      simp only [setContract_self, Option.some.injEq, Contract.mk.injEq] at hp
      obtain ⟨rfl, rfl⟩ := hp
      obtain ⟨h2, code, rfl⟩ := callInstantiate_pair hx
      exact .inr ⟨hnew, h2, code, _, _, rfl⟩
    · exact .inl (keep ((setContract_ne _ _ h1).trans (congrFun (moveCoins_inv hmv).contracts a)))
  | migrate sender _ _ _ k me s1 _ _ hc =>
    by_cases h1 : a = me
    · subst h1
      simp only [World.setState, setContract_self, Option.some.injEq, Contract.mk.injEq] at hp
      obtain ⟨rfl, h2⟩ := hp
      cases k <;> cases s1 <;> simp only [migrateState, reduceCtorEq, CState.pair.injEq] at h2
      subst h2
      exact .inl ⟨_, _, hc, rfl, .inl rfl⟩
    · exact .inl (keep (setContract_ne _ _ h1))
  | admin sender _ _ _ adm2 me s1 _ hc _ =>
    by_cases h1 : a = me
    · subst h1
      simp only [World.setState, setContract_self, Option.some.injEq, Contract.mk.injEq] at hp
      obtain ⟨rfl, rfl⟩ := hp
      exact .inl ⟨_, _, hc, rfl, .inl rfl⟩
    · exact .inl (keep (setContract_ne _ _ h1))
  | replyPair me id created admin s1 s' r hc hx =>
    by_cases h1 : a = me
    · subst h1
      simp only [World.setState, setContract_self, Option.some.injEq, Contract.mk.injEq, CState.pair.injEq] at hp
      obtain ⟨rfl, rfl⟩ := hp
      unfold Pair.reply at hx
      simp only [bind_eq_ok, okOr_eq_ok, canonicalize_eq_ok, pure_eq_ok, Prod.mk.injEq] at hx
      obtain ⟨lt, h1, b, h2, rfl, rfl⟩ := hx
      exact .inl ⟨s1, _, hc, rfl, .inr ⟨id, created, rfl, rfl, lt, h1, h2⟩⟩
    · exact .inl (keep (setContract_ne _ _ h1))
  | replyFactory me _ _ admin s1 s' r hc hx =>
    by_cases h1 : a = me
    · subst h1; simp [World.setState] at hp
    · exact .inl (keep (setContract_ne _ _ h1))

/-- New frames of a pair. -/
theorem new_pairFrame {c : Chain} {adv : Adv} {n : Nat} {w w' : World} {f : Frame} {fs rest : List Frame}
    (hi : Sane c w (f :: rest)) (h : StepI c adv n w f w' fs) {a : Addr} {adm : Option Addr} {s : Pair.State}
    (hp : w'.contracts a = some ⟨adm, .pair s⟩) : ∀ g ∈ fs, g.actor = a → PairFrame w' a g := by
  intro g hg ha
  rcases pair_back h hp with ⟨s0, adm0, h0, _, _⟩ | ⟨hnone, _, code, id, cr, hfs⟩
  · -- the pair existed
    have hfr : f.actor = a → PairFrame w a f := fun e => hi.pairFrames a adm0 s0 h0 f (by simp) e
    cases h with
    | bank sender _ _ id =>
      obtain ⟨i, rfl, rfl⟩ := mem_replyFrame hg
      cases hfr ha
    | token sender _ _ _ id me _ _ _ _ r _ _ _ hc | factory sender _ _ _ id me _ _ _ _ r _ _ _ hc
    | router sender _ _ _ id me _ _ _ _ r _ _ _ hc =>
      rcases List.mem_append.mp hg with hg | hg
      · obtain ⟨m, _, rfl⟩ := mem_frames hg
        simp only [Frame.actor] at ha
        subst ha
        rw [h0] at hc; cases hc
      · obtain ⟨i, rfl, rfl⟩ := mem_replyFrame hg
        cases hfr ha
    | pair sender _ _ _ id me _ _ _ _ r _ _ _ hc hx =>
      rcases List.mem_append.mp hg with hg | hg
      · obtain ⟨m, hm, rfl⟩ := mem_frames hg
        simp only [Frame.actor] at ha
        subst ha
        obtain ⟨cm, rfl, ho⟩ := (Pair.execute_out hx).2 m hm
        exact .out _ ho
      · obtain ⟨i, rfl, rfl⟩ := mem_replyFrame hg
        cases hfr ha
    | other sender _ _ _ id me _ _ ms _ _ hc =>
      rcases List.mem_append.mp hg with hg | hg
      · simp only [List.mem_map] at hg
        obtain ⟨m, _, rfl⟩ := hg
        simp only [Frame.actor] at ha
        subst ha
        rw [h0] at hc; cases hc
      · obtain ⟨i, rfl, rfl⟩ := mem_replyFrame hg
        cases hfr ha
    | inst sender admin codeId m funds id kk adm2 w1 s1 fs1 hk hadm hnew hmv hx =>
      rcases List.mem_append.mp hg with hg | hg
      · obtain ⟨m, rfl⟩ := callInstantiate_frames hx _ hg
        simp only [Frame.actor] at ha
        rw [ha, h0] at hnew; cases hnew
      · obtain ⟨i, rfl, rfl⟩ := mem_replyFrame hg
        have h3 := hfr ha
        simp only [Frame.actor] at ha
        subst ha
        cases h3 with
        | inst code =>
          refine .reply _ ?_
          simp only [resolveAdmin, Except.ok.injEq] at hadm
          subst hadm
          rcases callInstantiate_lp hx with ⟨t, rfl, h4, _⟩ | rfl
          · exact .inl ⟨t, setContract_self _ _ _, h4⟩
          · exact .inr (setContract_self _ _ _)
    | migrate sender _ _ id | admin sender _ _ id =>
      obtain ⟨i, rfl, rfl⟩ := mem_replyFrame hg
      cases hfr ha
    | replyPair me _ _ _ _ _ r hc hx =>
      unfold Pair.reply at hx
      simp only [bind_eq_ok, okOr_eq_ok, canonicalize_eq_ok, pure_eq_ok, Prod.mk.injEq] at hx
      obtain ⟨lt, h1, b, h2, rfl, rfl⟩ := hx
      cases hg
    | replyFactory me _ _ _ _ _ r hc hx =>
      obtain ⟨m, _, rfl⟩ := mem_frames hg
      simp only [Frame.actor] at ha
      subst ha
      rw [h0] at hc; cases hc
    | replyOther me _ _ _ ms hc =>
      simp only [List.mem_map] at hg
      obtain ⟨m, _, rfl⟩ := hg
      simp only [Frame.actor] at ha
      subst ha
      rw [h0] at hc; cases hc
  · -- the pair was just created
    have hne : f.actor ≠ a := by
      intro e
      rcases hi.actors f (by simp) with hu | hs
      · obtain ⟨k, _, hk⟩ := (hi.at_addr.step h) _ _ hp
        exact hu.1 k (by rw [e]; exact hk.symm)
      · rw [e, hnone] at hs; cases hs
    rw [hfs] at hg
    rcases List.mem_cons.mp hg with rfl | hg
    · exact .inst code
    · obtain ⟨i, _, rfl⟩ := mem_replyFrame hg
      exact absurd ha hne

/-- The invariant holds along every execution. -/
theorem Sane.step {c : Chain} {adv : Adv} {n : Nat} {w w' : World} {f : Frame} {fs rest : List Frame}
    (hi : Sane c w (f :: rest)) (h : StepI c adv n w f w' fs) : Sane c w' (fs ++ rest) where
  at_addr := hi.at_addr.step h
  actors := by
    intro g hg
    rcases List.mem_append.mp hg with hg | hg
    · rcases actor_step h g hg with e | e
      · rw [e]
        rcases hi.actors f (by simp) with hu | hs
        · exact .inl hu
        · exact .inr (isSome_step h hs)
      · exact .inr e
    · rcases hi.actors g (by simp [hg]) with hu | hs
      · exact .inl hu
      · exact .inr (isSome_step h hs)
  pairFrames := by
    intro a adm s hp g hg ha
    rcases List.mem_append.mp hg with hg | hg
    · exact new_pairFrame hi h hp g hg ha
    · rcases pair_back h hp with ⟨s0, adm0, h0, _, _⟩ | ⟨hnone, _, _⟩
      · cases hi.pairFrames a adm0 s0 h0 g (by simp [hg]) ha with
        | out m ho => exact .out m ho
        | inst code => exact .inst code
        | reply lt hl => exact .reply lt (hl.step hi h h0)
      · exfalso
        rcases hi.actors g (by simp [hg]) with hu | hs
        · obtain ⟨k, _, hk⟩ := (hi.at_addr.step h) _ _ hp
          exact hu.1 k (by rw [ha]; exact hk.symm)
        · rw [ha, hnone] at hs; cases hs
  linked := by
    intro a adm s hp
    rcases pair_back h hp with ⟨s0, adm0, h0, _, hs⟩ | ⟨hnone, _, code, id, cr, hfs⟩
    · rcases hs with rfl | ⟨id, created, rfl, rfl, lt, rfl, hlt⟩
      · rcases hi.linked a adm0 s0 h0 with ⟨lt, hl, hc⟩ | ⟨g, hg, hpend⟩
        · exact .inl ⟨lt, hl.step hi h h0, hc⟩
        · rcases List.mem_cons.mp hg with rfl | hg
          · -- the pending frame just ran
            cases hpend with
            | inst code =>
              right
              cases h with
              | inst sender admin codeId m funds id kk adm2 w1 s1 fs1 hk hadm hnew hmv hx =>
                exact ⟨.reply a 1 (some (c.addrOf w.next)), by simp [replyFrame], .reply _⟩
            | reply lt =>
              left
              have hl : LPat w a lt := by
                cases hi.pairFrames a adm0 s0 h0 _ List.mem_cons_self rfl with
                | reply _ hl => exact hl
              refine ⟨lt, hl.step hi h h0, ?_⟩
              cases h with
              | replyPair me id created admin s1 s' r hc hx =>
                simp only [World.setState, setContract_self, Option.some.injEq, Contract.mk.injEq,
                  CState.pair.injEq] at hp
                obtain ⟨_, rfl⟩ := hp
                unfold Pair.reply at hx
                simp only [bind_eq_ok, okOr_eq_ok, canonicalize_eq_ok, pure_eq_ok, Prod.mk.injEq,
                  Option.some.injEq] at hx
                obtain ⟨lt, rfl, b, h2, h3, _⟩ := hx
                rw [h2, ← h3]
              | replyFactory me id created admin s1 s' r hc hx => rw [h0] at hc; cases hc
              | replyOther me _ _ _ ms hc => rw [h0] at hc; cases hc
          · exact .inr ⟨g, by simp [hg], hpend⟩
      · left
        have hl : LPat w a lt := by
          cases hi.pairFrames a adm0 s0 h0 _ List.mem_cons_self rfl with
          | reply _ hl => exact hl
        exact ⟨lt, hl.step hi h h0, hlt⟩
    · right
      exact ⟨_, by rw [hfs]; simp, .inst code⟩
  addr := by
    intro a adm s hp
    rcases pair_back h hp with ⟨s0, adm0, h0, he, _⟩ | ⟨_, hc, _⟩
    · rw [← he]; exact hi.addr a adm0 s0 h0
    · exact hc
  silent := by
    intro t adm s a ht hs sp
    have hs0 := hs.back h
    have keep : w'.contracts t = w.contracts t → s.allowances.get (a, sp) = none := fun e =>
      hi.silent t adm s a (by rw [← e]; exact ht) hs0 sp
    cases h with
    | bank _ _ _ _ _ _ _ _ hmv => exact keep (by rw [(moveCoins_inv hmv).contracts])
    | other _ _ _ _ _ _ _ _ _ _ hmv => exact keep (by rw [(moveCoins_inv hmv).contracts])
    | replyOther => exact keep rfl
    | token sender target m funds id me w1 admin s1 s' r _ hmv _ hc hx =>
      by_cases h1 : t = me
      · subst h1
        simp only [World.setState, setContract_self, Option.some.injEq, Contract.mk.injEq, CState.token.injEq] at ht
        obtain ⟨rfl, rfl⟩ := ht
        refine eff_allow (Token.execute_inv hx) (hi.silent _ _ _ a hc hs0) ?_ sp
        rintro rfl
        have hf := hi.actor_not_silent hs0
        cases hf with
        | out _ ho =>
          constructor
          · rintro sp x e rfl; exact absurd ho (by simp [Pair.OutMsg])
          · rintro sp x e rfl; exact absurd ho (by simp [Pair.OutMsg])
      · exact keep ((setContract_ne _ _ h1).trans (congrFun (moveCoins_inv hmv).contracts t))
    | pair _ _ _ _ _ me w1 admin s1 s' r _ hmv _ hc _ | factory _ _ _ _ _ me w1 admin s1 s' r _ hmv _ hc _
    | router _ _ _ _ _ me w1 admin s1 s' r _ hmv _ hc _ =>
      by_cases h1 : t = me
      · subst h1; simp [World.setState] at ht
      · exact keep ((setContract_ne _ _ h1).trans (congrFun (moveCoins_inv hmv).contracts t))
    | inst sender admin codeId m funds id kk adm2 w1 s1 fs1 hk hadm hnew hmv hx =>
      by_cases h1 : t = c.addrOf w.next
      · subst h1
        simp only [setContract_self, Option.some.injEq, Contract.mk.injEq] at ht
        obtain ⟨rfl, rfl⟩ := ht
        rw [callInstantiate_noAllow hx]; rfl
      · exact keep ((setContract_ne _ _ h1).trans (congrFun (moveCoins_inv hmv).contracts t))
    | migrate sender _ _ _ k me s1 _ _ hc =>
      by_cases h1 : t = me
      · subst h1
        simp only [World.setState, setContract_self, Option.some.injEq, Contract.mk.injEq] at ht
        obtain ⟨rfl, h2⟩ := ht
        cases k <;> cases s1 <;> simp [migrateState] at h2
      · exact keep (setContract_ne _ _ h1)
    | admin sender _ _ _ adm2 me s1 _ hc _ =>
      by_cases h1 : t = me
      · subst h1
        simp only [World.setState, setContract_self, Option.some.injEq, Contract.mk.injEq] at ht
        obtain ⟨rfl, rfl⟩ := ht
        exact hi.silent t _ s a hc hs0 sp
      · exact keep (setContract_ne _ _ h1)
    | replyPair me _ _ admin s1 s' r hc hx | replyFactory me _ _ admin s1 s' r hc hx =>
      by_cases h1 : t = me
      · subst h1; simp [World.setState] at ht
      · exact keep (setContract_ne _ _ h1)

theorem Reachable.sane {c : Chain} {w : World} (h : Reachable c w) : Sane c w [] :=
  reachable_stack (P := Sane c)
    (fun w hg => by
      have hn : ∀ a k, w.contracts a = some k → False := fun a k ha => by rw [hg.2 a] at ha; cases ha
      exact ⟨fun a k ha => (hn a k ha).elim, by simp, by simp, fun a _ _ ha => (hn _ _ ha).elim,
        fun a _ _ ha => (hn _ _ ha).elim, fun a _ _ _ ha => (hn _ _ ha).elim⟩)
    (fun w signer m hi hu => by
      refine ⟨hi.at_addr, by simpa [Frame.actor] using .inl hu, ?_, ?_, hi.addr, hi.silent⟩
      · intro a adm s hp g hg ha
        simp only [List.mem_singleton] at hg
        subst hg
        obtain ⟨k, _, hk⟩ := hi.at_addr _ _ hp
        exact absurd (hk.symm.trans ha.symm) (hu.1 k)
      · intro a adm s hp
        rcases hi.linked a adm s hp with h | ⟨g, hg, _⟩
        · exact .inl h
        · cases hg)
    (fun _ _ _ _ _ _ _ hi hs => hi.step hs)
    (fun w b hi => ⟨hi.at_addr, by simp, by simp, fun a adm s hp => (hi.linked a adm s hp).imp id (by simp),
      hi.addr, hi.silent⟩)
    (fun w bank' _ hi => ⟨hi.at_addr, by simp, by simp, fun a adm s hp => (hi.linked a adm s hp).imp id (by simp),
      hi.addr, hi.silent⟩) h

end Halo
