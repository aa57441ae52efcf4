import Verif.Lemmas.LockedL
import Verif.Props.Tokens
/-! # What an account can lose (helper lemmas for C116) -/

namespace Halo
open _root_.Halo.Spec

/-- There is a pair (of whatever assets) at `a`. -/
def PairAt (v : World) (a : Addr) : Prop := ∃ adm s, v.contracts a = some ⟨adm, .pair s⟩

/-- The address `a` runs one of the project's contracts: a token, a pair, a factory or a router. -/
def House (v : World) (a : Addr) : Prop := ∃ adm k, v.contracts a = some ⟨adm, k⟩ ∧ k ≠ .other

theorem PairAt.house {v : World} {a : Addr} : PairAt v a → House v a := fun ⟨adm, _, h⟩ => ⟨adm, _, h, by simp⟩

/-- What the sender of a message to a token gives away by it. -/
def spends : ExecMsg → Nat
  | .transfer _ x => x
  | .send _ x _ => x
  | .burn x => x
  | _ => 0

/-- What a deposit to the pair with storage `s` names of the token `t`. -/
def pledged (c : Chain) (t : Addr) (s : Pair.State) (assets : Asset × Asset) : Nat :=
  let part (raw : AssetInfoRaw) : Nat := if raw.toNormal c.api = .ok (.token t) then PairSite.named (.token t) assets else 0
  part s.assetInfos.1 + part s.assetInfos.2

/-- What a message of `U` transfers, sends or burns of the token `t`. -/
def handedOver (c : Chain) (U t : Addr) : Frame → Nat
  | .msg u ⟨.exec target m _, _⟩ => if u = U ∧ c.api.resolve target = .ok t then spends m else 0
  | _ => 0

/-- What a message of `U`, executed in state `v`, offers of the token `t` to a pair as a deposit. -/
def putForward (c : Chain) (U t : Addr) : World × Frame → Nat
  | (v, .msg u ⟨.exec target (.provideLiquidity assets _ _) _, _⟩) =>
    if u = U then
      match c.api.resolve target with
      | .ok a =>
        match v.contracts a with
        | some ⟨_, .pair s⟩ => pledged c t s assets
        | _ => 0
      | .error _ => 0
    else 0
  | _ => 0

/-- What a message of `U` gives away of the token `t`. -/
def cost (c : Chain) (U t : Addr) (e : World × Frame) : Nat := handedOver c U t e.2 + putForward c U t e

/-- `U` raises the allowance of `sp` at the token `t`. -/
def GrantsTo (c : Chain) (t U sp : Addr) : Frame → Prop
  | .msg u ⟨.exec target (.increaseAllowance sp' _ _) _, _⟩ => u = U ∧ sp' = sp ∧ c.api.resolve target = .ok t
  | _ => False

namespace ApproveL

open Classical in
/-- What a pending message of a pair is going to take from `U`. -/
noncomputable def asked (c : Chain) (U t : Addr) (v : World) : Frame → Nat
  | .msg p ⟨.exec t' (.transferFrom o _ x) _, _⟩ => if PairAt v p ∧ o = U ∧ c.api.resolve t' = .ok t then x else 0
  | _ => 0

noncomputable def askedAll (c : Chain) (U t : Addr) (v : World) (fs : List Frame) : Nat := (fs.map (asked c U t v)).sum

theorem asked_none {c : Chain} {U t : Addr} {v : World} {f : Frame} (h : ¬ PairAt v f.actor) : asked c U t v f = 0 := by
  unfold asked
  split
  · exact if_neg fun h' => h h'.1
  · rfl

theorem askedAll_none {c : Chain} {U t : Addr} {v : World} {fs : List Frame} (h : ∀ f ∈ fs, asked c U t v f = 0) :
    askedAll c U t v fs = 0 := by
  unfold askedAll
  rw [List.sum_eq_zero]
  intro x hx
  obtain ⟨f, hf, rfl⟩ := List.mem_map.mp hx
  exact h f hf

theorem askedAll_append {c : Chain} {U t : Addr} {v : World} (fs gs : List Frame) :
    askedAll c U t v (fs ++ gs) = askedAll c U t v fs + askedAll c U t v gs := by simp [askedAll]

theorem askedAll_cons {c : Chain} {U t : Addr} {v : World} (f : Frame) (gs : List Frame) :
    askedAll c U t v (f :: gs) = asked c U t v f + askedAll c U t v gs := by simp [askedAll]

theorem askedAll_reply {c : Chain} {U t s : Addr} {v : World} {id : Option Nat} {cr : Option Addr} :
    askedAll c U t v (replyFrame s id cr) = 0 :=
  askedAll_none fun f hf => by
    obtain ⟨_, _, rfl⟩ := mem_replyFrame hf
    rfl

theorem askedAll_mono {c : Chain} {U t : Addr} {v v' : World} {fs : List Frame} (h : ∀ f ∈ fs, PairAt v' f.actor → PairAt v f.actor) :
    askedAll c U t v' fs ≤ askedAll c U t v fs := by
  induction fs with
  | nil => exact Nat.le_refl _
  | cons f fs ih =>
    rw [askedAll_cons, askedAll_cons]
    refine Nat.add_le_add ?_ (ih fun g hg => h g (by simp [hg]))
    have hf := h f (by simp)
    unfold asked
    split
    · simp only [Frame.actor] at hf
      split
      · rename_i h1
        rw [if_pos ⟨hf h1.1, h1.2⟩]
      · exact Nat.zero_le _
    · exact Nat.le_refl _

/-- A pair stays a pair, or becomes foreign code. -/
theorem pairAt_step {c : Chain} {adv : Adv} {n : Nat} {w w' : World} {f : Frame} {fs : List Frame} (h : StepI c adv n w f w' fs) {a : Addr}
    (ha : PairAt w a) : PairAt w' a ∨ ∃ adm, w'.contracts a = some ⟨adm, .other⟩ := by
  obtain ⟨adm, s, ha⟩ := ha
  cases storeStep h with
  | same e => exact .inl ⟨adm, s, by rw [e]; exact ha⟩
  | token me _ _ _ _ _ _ hc _ _ hc' ho | factory me _ _ _ hc hc' ho | router me _ _ _ hc hc' ho =>
    by_cases h1 : a = me
    · subst h1; rw [hc] at ha; cases ha
    · exact .inl ⟨adm, s, by rw [ho a h1]; exact ha⟩
  | pair me _ _ s' hc hc' ho =>
    by_cases h1 : a = me
    · subst h1; exact .inl ⟨_, _, hc'⟩
    · exact .inl ⟨adm, s, by rw [ho a h1]; exact ha⟩
  | inst me _ _ _ _ _ _ _ _ hme hnew hx2 hc' ho =>
    by_cases h1 : a = me
    · subst h1; rw [hnew] at ha; cases ha
    · exact .inl ⟨adm, s, by rw [ho a h1]; exact ha⟩
  | migrate me _ kk s1 hc hc' ho =>
    by_cases h1 : a = me
    · subst h1
      rw [hc] at ha; cases ha
      cases kk
      case pair => exact .inl ⟨_, _, hc'⟩
      all_goals exact .inr ⟨_, hc'⟩
    · exact .inl ⟨adm, s, by rw [ho a h1]; exact ha⟩
  | admin me _ _ s1 _ _ hc hc' ho =>
    by_cases h1 : a = me
    · subst h1
      rw [hc] at ha; cases ha
      exact .inl ⟨_, _, hc'⟩
    · exact .inl ⟨adm, s, by rw [ho a h1]; exact ha⟩

/-- A contract of the project stays one, or becomes foreign code. -/
theorem house_step {c : Chain} {adv : Adv} {n : Nat} {w w' : World} {f : Frame} {fs : List Frame} (h : StepI c adv n w f w' fs) {a : Addr}
    (ha : House w a) : House w' a ∨ ∃ adm, w'.contracts a = some ⟨adm, .other⟩ := by
  obtain ⟨adm, k, ha, _⟩ := ha
  obtain ⟨⟨adm', k'⟩, hk⟩ := Option.isSome_iff_exists.mp (isSome_step h (a := a) (by rw [ha]; rfl))
  by_cases e : k' = .other
  · subst e
    exact .inr ⟨adm', hk⟩
  · exact .inl ⟨adm', k', hk, e⟩

/-- It was one before, or has just been created. -/
theorem house_back {c : Chain} {adv : Adv} {n : Nat} {w w' : World} {f : Frame} {fs : List Frame} (h : StepI c adv n w f w' fs) {a : Addr}
    (ha : House w' a) : House w a ∨ w.contracts a = none := by
  cases e : w.contracts a with
  | none => exact .inr rfl
  | some k =>
    obtain ⟨adm, k⟩ := k
    refine .inl ⟨adm, k, e, ?_⟩
    rintro rfl
    obtain ⟨adm', h1, _⟩ := other_step h e
    obtain ⟨adm2, k2, h2, h3⟩ := ha
    rw [h1] at h2
    cases h2
    exact h3 rfl

/-- Messages that use an allowance given to their sender. -/
def Draws : CosmosMsg → Prop
  | .exec _ (.transferFrom _ _ _) _ => True
  | .exec _ (.burnFrom _ _) _ => True
  | .exec _ (.sendFrom _ _ _ _) _ => True
  | _ => False

/-- The router uses no allowances. -/
theorem router_quiet {api : Api} {q : Querier} {me sender : Addr} {s s' : Router.State} {m : ExecMsg} {r : Response}
    (h : Router.execute api q me s sender m = .ok (s', r)) : ∀ sm ∈ r.messages, ¬ Draws sm.msg := by
  have hops : ∀ (dst : Addr) (ops : List SwapOp), ∀ cm ∈ Router.hopMsgs me dst ops, ¬ Draws cm := by
    intro dst ops
    induction ops with
    | nil => intro cm hc; cases hc
    | cons o t ih =>
      intro cm hc
      cases t with
      | nil => simp only [Router.hopMsgs, List.mem_singleton] at hc; subst hc; exact id
      | cons o' t =>
        rcases List.mem_cons.mp hc with rfl | hc
        · exact id
        · exact ih cm hc
  have ops : ∀ {sender ops mn dst}, Router.executeSwapOperations api q me s sender ops mn dst = .ok (s', r) →
      ∀ sm ∈ r.messages, ¬ Draws sm.msg := by
    intro sender ops mn dst h sm hs
    simp only [Router.executeSwapOperations, bind_eq_ok] at h
    obtain ⟨_, _, _, _, h⟩ := h
    cases mn with
    | none =>
      simp only [pure_eq_ok, Prod.mk.injEq] at h
      obtain ⟨_, rfl⟩ := h
      simp only [List.mem_map] at hs
      obtain ⟨cm, hc, rfl⟩ := hs
      exact hops _ _ cm hc
    | some m =>
      simp only [bind_eq_ok, pure_eq_ok, Prod.mk.injEq] at h
      obtain ⟨_, _, _, rfl⟩ := h
      simp only [List.mem_map, List.mem_append, List.mem_singleton] at hs
      obtain ⟨cm, hc | rfl, rfl⟩ := hs
      · exact hops _ _ cm hc
      · exact id
  cases m with
  | receive sd x hk =>
    simp only [Router.execute, Router.receiveCw20, bind_eq_ok] at h
    obtain ⟨_, _, h⟩ := h
    cases hk with
    | executeSwapOperations o mn t =>
      simp only [bind_eq_ok] at h
      obtain ⟨_, _, h⟩ := h
      exact ops h
    | _ => cases h
  | executeSwapOperations o mn t =>
    simp only [Router.execute, bind_eq_ok] at h
    obtain ⟨_, _, h⟩ := h
    exact ops h
  | executeSwapOperation o t =>
    simp only [Router.execute, Router.executeSwapOperation, bind_eq_ok, pure_eq_ok, Prod.mk.injEq] at h
    obtain ⟨_, _, _, _, _, _, _, _, _, _, _, rfl⟩ := h
    intro sm hs
    simp only [List.mem_singleton] at hs
    rw [hs]
    unfold Router.assetIntoSwapMsg
    split <;> exact id
  | assertMinimumReceive _ _ _ _ =>
    simp only [Router.execute, Router.assertMinimumReceive, bind_eq_ok, pure_eq_ok, Prod.mk.injEq] at h
    obtain ⟨_, _, _, _, _, _, _, _, _, rfl⟩ := h
    intro sm hs
    cases hs
  | _ => cases h

/-- Of the project's contracts only the pairs use allowances. -/
structure Quiet (c : Chain) (w : World) (fs : List Frame) : Prop where
  sane : Sane c w fs
  frames : ∀ a m, Frame.msg a m ∈ fs → House w a → Draws m.msg → PairAt w a

theorem Quiet.start {c : Chain} {w : World} (hi : Sane c w []) {signer : Addr} (hu : c.IsUser signer) (m : CosmosMsg) :
    Quiet c w [.msg signer (plain m)] where
  sane := hi.start hu m
  frames := by
    intro a m' hm ⟨adm, k, ha, _⟩
    simp only [List.mem_singleton, Frame.msg.injEq] at hm
    obtain ⟨n, _, h⟩ := hi.at_addr _ _ ha
    rw [hm.1] at h
    exact absurd h.symm (hu.1 n)

theorem Quiet.step {c : Chain} {adv : Adv} {n : Nat} {w w' : World} {f : Frame} {fs rest : List Frame}
    (hi : Quiet c w (f :: rest)) (h : StepI c adv n w f w' fs) : Quiet c w' (fs ++ rest) where
  sane := hi.sane.step h
  frames := by
    intro a m hm hh hd
    rcases List.mem_append.mp hm with hg | hg
    · cases h with
      | bank sender _ _ id => obtain ⟨i, rfl, hc⟩ := mem_replyFrame hg; cases hc
      | token sender _ _ _ id me _ _ _ _ r _ _ _ hc hx =>
        rcases List.mem_append.mp hg with hg | hg
        · obtain ⟨m', hm, hc⟩ := mem_frames hg
          cases hc
          obtain ⟨t, b, x, hk, rfl⟩ := Token.eff_out (Token.execute_inv hx) m hm
          exact hd.elim
        · obtain ⟨i, rfl, hc⟩ := mem_replyFrame hg; cases hc
      | pair sender _ _ _ id me _ _ _ _ r _ _ _ hc hx =>
        rcases List.mem_append.mp hg with hg | hg
        · obtain ⟨m', hm, hc⟩ := mem_frames hg
          cases hc
          exact ⟨_, _, setContract_self _ _ _⟩
        · obtain ⟨i, rfl, hc⟩ := mem_replyFrame hg; cases hc
      | factory sender _ _ _ id me _ _ _ _ r _ _ _ hc hx =>
        rcases List.mem_append.mp hg with hg | hg
        · obtain ⟨m', hm, hc⟩ := mem_frames hg
          cases hc
          rcases Factory.eff_out (Factory.execute_inv hx) m hm with ⟨_, _, _, _, rfl⟩ | ⟨_, _, rfl⟩ <;> exact hd.elim
        · obtain ⟨i, rfl, hc⟩ := mem_replyFrame hg; cases hc
      | router sender _ _ _ id me _ _ _ _ r _ _ _ hc hx =>
        rcases List.mem_append.mp hg with hg | hg
        · obtain ⟨m', hm, hc⟩ := mem_frames hg
          cases hc
          exact absurd hd (router_quiet hx m hm)
        · obtain ⟨i, rfl, hc⟩ := mem_replyFrame hg; cases hc
      | other sender _ _ _ id me w1 _ ms _ hmv hc =>
        rcases List.mem_append.mp hg with hg | hg
        · simp only [List.mem_map] at hg
          obtain ⟨m', _, hc'⟩ := hg
          cases hc'
          obtain ⟨adm, k, h1, h2⟩ := hh
          rw [(moveCoins_inv hmv).contracts, hc] at h1
          cases h1
          exact absurd rfl h2
        · obtain ⟨i, rfl, hc⟩ := mem_replyFrame hg; cases hc
      | inst sender admin codeId m' funds id kk adm2 w1 s1 fs1 hk hadm hnew hmv hx =>
        rcases List.mem_append.mp hg with hg | hg
        · obtain ⟨_, hc⟩ := callInstantiate_frames hx _ hg
          cases hc
          obtain ⟨adm, k, h1, h2⟩ := hh
          rw [setContract_self] at h1
          cases h1
          have hq := hx
          unfold callInstantiate at hq
          simp only [bind_eq_ok] at hq
          obtain ⟨_, _, hq⟩ := hq
          split at hq <;> try simp only [bind_eq_ok, pure_eq_ok, Prod.mk.injEq, Prod.exists] at hq
          · obtain ⟨_, _, _, rfl⟩ := hq; cases hg
          · obtain ⟨s0, r, _, rfl, _⟩ := hq
            exact ⟨_, _, setContract_self _ _ _⟩
          · obtain ⟨_, r, hy, _, rfl⟩ := hq
            unfold Factory.instantiate at hy
            simp only [bind_eq_ok, pure_eq_ok, Prod.mk.injEq, canonicalize_eq_ok] at hy
            obtain ⟨ca, h1, _, rfl⟩ := hy
            cases hg
          · obtain ⟨_, r, hy, _, rfl⟩ := hq
            unfold Router.instantiate at hy
            simp only [bind_eq_ok, pure_eq_ok, Prod.mk.injEq, canonicalize_eq_ok] at hy
            obtain ⟨ca, h1, _, rfl⟩ := hy
            cases hg
          · obtain ⟨_, _, rfl, _⟩ := hq; exact absurd rfl h2
          · cases hq
        · obtain ⟨i, rfl, hc⟩ := mem_replyFrame hg; cases hc
      | migrate sender _ _ id | admin sender _ _ id => obtain ⟨i, rfl, hc⟩ := mem_replyFrame hg; cases hc
      | replyPair me _ _ _ _ _ r hc hx =>
        obtain ⟨m', hm, hc⟩ := mem_frames hg
        cases hc
        exact ⟨_, _, setContract_self _ _ _⟩
      | replyFactory me _ _ _ _ _ r hc hx =>
        obtain ⟨_, _, _, _, _, _, _, _, _, _, rfl, _⟩ := Factory.reply_inv hx
        cases hg
      | replyOther me _ _ _ ms hc =>
        simp only [List.mem_map] at hg
        obtain ⟨m', _, hc'⟩ := hg
        cases hc'
        obtain ⟨adm, k, h1, h2⟩ := hh
        rw [hc] at h1
        cases h1
        exact absurd rfl h2
    · have hm' : Frame.msg a m ∈ f :: rest := List.mem_cons_of_mem _ hg
      rcases house_back h hh with h1 | h1
      · rcases pairAt_step h (hi.frames a m hm' h1 hd) with h2 | ⟨adm, h2⟩
        · exact h2
        · obtain ⟨adm', k, h3, h4⟩ := hh
          rw [h2] at h3
          cases h3
          exact absurd rfl h4
      · rcases hi.sane.actors _ hm' with hu | hu
        · obtain ⟨adm', k, h3, h4⟩ := hh
          obtain ⟨j, _, hj⟩ := (hi.sane.at_addr.step h) _ _ h3
          exact absurd hj.symm (hu.1 j)
        · simp only [Frame.actor] at hu
          rw [h1] at hu
          cases hu

theorem get_erase_ne {K V : Type} [DecidableEq K] (m : AMap K V) {k k' : K} (h : k' ≠ k) : (m.erase k).get k' = m.get k' := by
  induction m with
  | nil => rfl
  | cons e t ih =>
    obtain ⟨a, b⟩ := e
    unfold AMap.erase at ih ⊢
    rw [List.filter_cons]
    by_cases ha : a = k
    · rw [if_neg (by simp [ha]), ih, AMap.get, if_neg (fun e => h (by rw [← e, ha]))]
    · rw [if_pos (by simp [ha]), AMap.get, AMap.get, ih]

theorem get_erase_self {K V : Type} [DecidableEq K] (m : AMap K V) (k : K) : (m.erase k).get k = none := by
  induction m with
  | nil => rfl
  | cons e t ih =>
    obtain ⟨a, b⟩ := e
    unfold AMap.erase at ih ⊢
    rw [List.filter_cons]
    by_cases ha : a = k
    · rw [if_neg (by simp [ha]), ih]
    · rw [if_pos (by simp [ha]), AMap.get, if_neg ha, ih]

/-- Allowances appear only where their owner raises them. -/
theorem allow_execute {api : Api} {blk : Block} {s s' : TokenState} {sender U sp : Addr} {m : ExecMsg} {r : Response}
    (h : Token.execute api blk s sender m = .ok (s', r)) (ha : allowanceOf s' U sp ≠ 0) :
    allowanceOf s U sp ≠ 0 ∨ sender = U ∧ ∃ x e, m = .increaseAllowance sp x e := by
  have he := Token.execute_inv h
  have keep : s'.allowances = s.allowances → allowanceOf s U sp ≠ 0 ∨ sender = U ∧ ∃ x e, m = .increaseAllowance sp x e := by
    intro e
    left
    unfold allowanceOf at ha ⊢
    rw [e] at ha
    exact ha
  have used : ∀ {o : Addr} {x : Nat} {a : Allowance}, s.allowances.get (o, sender) = some a →
      s'.allowances = s.allowances.set (o, sender) ⟨a.amount - x, a.expires⟩ → allowanceOf s U sp ≠ 0 := by
    intro o x a h1 h2
    unfold allowanceOf at ha ⊢
    rw [h2] at ha
    by_cases e : (U, sp) = (o, sender)
    · rw [e, AMap.get_set_self] at ha
      rw [e, h1]
      simp only at ha ⊢
      omega
    · rw [AMap.get_set_ne _ _ e] at ha
      exact ha
  cases he with
  | transfer | burn | send | mint | renounce | newMinter => exact keep rfl
  | transferFrom o dst x a _ _ h1 => exact .inl (used h1 rfl)
  | sendFrom o dst x _ a _ _ h1 => exact .inl (used h1 rfl)
  | burnFrom o x a _ h1 => exact .inl (used h1 rfl)
  | increase sp' x e a =>
    by_cases e1 : (U, sp) = (sender, sp')
    · cases e1
      exact .inr ⟨rfl, _, _, rfl⟩
    · left
      unfold allowanceOf at ha ⊢
      simp only [AMap.get_set_ne _ _ e1] at ha
      exact ha
  | decreaseZero sp' x e =>
    left
    unfold allowanceOf at ha ⊢
    by_cases e1 : (U, sp) = (sender, sp')
    · cases e1
      simp [get_erase_self] at ha
    · simp only [get_erase_ne _ e1] at ha
      exact ha
  | decrease sp' x e a =>
    left
    by_cases e1 : (U, sp) = (sender, sp')
    · cases e1
      simp only [Token.execute, Token.decreaseAllowance, bind_eq_ok, okOr_eq_ok, require_eq_ok, validate_eq_ok] at h
      obtain ⟨_, ⟨rfl, _⟩, _, _, cur, hcur, h⟩ := h
      by_cases hlt : x < cur.amount
      · unfold allowanceOf
        rw [hcur]
        simp only; omega
      · rw [if_neg hlt] at h
        simp only [pure_eq_ok, Prod.mk.injEq] at h
        obtain ⟨h, _⟩ := h
        unfold allowanceOf at ha
        rw [← h] at ha
        simp [get_erase_self] at ha
    · unfold allowanceOf at ha ⊢
      simp only [AMap.get_set_ne _ _ e1] at ha
      exact ha

/-- What a message takes from `U` on the strength of an allowance. -/
def takes (U : Addr) : ExecMsg → Nat
  | .transferFrom o _ x => if o = U then x else 0
  | .burnFrom o x => if o = U then x else 0
  | .sendFrom o _ x _ => if o = U then x else 0
  | _ => 0

theorem loss_execute {api : Api} {blk : Block} {s s' : TokenState} {sender U : Addr} {m : ExecMsg} {r : Response}
    (h : Token.execute api blk s sender m = .ok (s', r)) :
    s.balances.getD0 U ≤ s'.balances.getD0 U + (if sender = U then spends m else 0) + takes U m ∧ takes U m ≤ allowanceOf s U sender := by
  have used : ∀ {o : Addr} {x : Nat} {a : Allowance}, s.allowances.get (o, sender) = some a → x ≤ a.amount →
      (if o = U then x else 0) ≤ allowanceOf s U sender := by
    intro o x a h1 h2
    split
    · rename_i e
      subst e
      unfold allowanceOf
      rw [h1]
      exact h2
    · exact Nat.zero_le _
  cases Token.execute_inv h with
  | transfer dst x _ _ hb | send dst x _ _ _ hb =>
    refine ⟨?_, Nat.zero_le _⟩
    simp only [Token.moveBal_get, spends, takes]
    by_cases e1 : sender = U
    · subst e1
      simp only [if_true]
      split <;> omega
    · rw [if_neg (Ne.symm e1), if_neg e1]
      split <;> omega
  | burn x _ hb =>
    refine ⟨?_, Nat.zero_le _⟩
    simp only [spends, takes]
    by_cases e1 : sender = U
    · subst e1
      simp only [AMap.getD0_set, if_true]
      omega
    · simp only [AMap.getD0_set, if_neg (Ne.symm e1), if_neg e1]
      omega
  | mint dst x =>
    refine ⟨?_, Nat.zero_le _⟩
    by_cases e1 : dst = U
    · subst e1
      simp only [AMap.getD0_set, if_true]
      omega
    · simp only [AMap.getD0_set, if_neg (Ne.symm e1)]
      omega
  | increase | decrease | decreaseZero | renounce | newMinter => exact ⟨by simp only; omega, Nat.zero_le _⟩
  | transferFrom o dst x a _ _ h1 _ h2 hb | sendFrom o dst x _ a _ _ h1 _ h2 hb =>
    refine ⟨?_, used h1 h2⟩
    simp only [Token.moveBal_get, takes]
    by_cases e1 : o = U
    · subst e1
      simp only [if_true]
      split <;> omega
    · rw [if_neg (Ne.symm e1), if_neg e1]
      split <;> omega
  | burnFrom o x a _ h1 _ h2 hb =>
    refine ⟨?_, used h1 h2⟩
    simp only [takes]
    by_cases e1 : o = U
    · subst e1
      simp only [AMap.getD0_set, if_true]
      omega
    · simp only [AMap.getD0_set, if_neg (Ne.symm e1), if_neg e1]
      omega

/-- The state of a token changes only through its messages. -/
theorem tok_step {c : Chain} {adv : Adv} {n : Nat} {w w' : World} {f : Frame} {fs : List Frame} (h : StepI c adv n w f w' fs)
    {t : Addr} {adm : Option Addr} {s : TokenState} (ht : w.contracts t = some ⟨adm, .token s⟩) :
    (∃ adm', w'.contracts t = some ⟨adm', .other⟩) ∨
      ∃ adm' s', w'.contracts t = some ⟨adm', .token s'⟩ ∧
        (s' = s ∨ ∃ sender target m funds id r, f = .msg sender ⟨.exec target m funds, id⟩ ∧ c.api.resolve target = .ok t ∧
          Token.execute c.api w.block s sender m = .ok (s', r)) := by
  have keep : (∃ adm', w'.contracts t = some ⟨adm', .token s⟩) → (∃ adm', w'.contracts t = some ⟨adm', .other⟩) ∨
      ∃ adm' s', w'.contracts t = some ⟨adm', .token s'⟩ ∧
        (s' = s ∨ ∃ sender target m funds id r, f = .msg sender ⟨.exec target m funds, id⟩ ∧ c.api.resolve target = .ok t ∧
          Token.execute c.api w.block s sender m = .ok (s', r)) := fun ⟨adm', h2⟩ => .inr ⟨adm', s, h2, .inl rfl⟩
  cases h with
  | bank _ _ _ _ _ _ _ _ hmv | other _ _ _ _ _ me _ _ _ hme hmv hc => exact keep ⟨adm, by rw [(moveCoins_inv hmv).contracts]; exact ht⟩
  | replyOther => exact keep ⟨adm, ht⟩
  | token sender target m funds id me w1 admin s1 s' r hme hmv hr hc hx =>
    by_cases h1 : t = me
    · subst h1
      rw [ht] at hc
      cases hc
      exact .inr ⟨adm, s', setContract_self _ _ _, .inr ⟨sender, target, m, funds, id, r, rfl, hme, hx⟩⟩
    · exact keep ⟨adm, ((setContract_ne _ _ h1).trans (congrFun (moveCoins_inv hmv).contracts t)).trans ht⟩
  | pair _ _ _ _ _ me w1 admin s1 s' r hme hmv _ hc _ | factory _ _ _ _ _ me w1 admin s1 s' r hme hmv _ hc _
  | router _ _ _ _ _ me w1 admin s1 s' r hme hmv _ hc _ =>
    have h1 : t ≠ me := by rintro rfl; rw [ht] at hc; cases hc
    exact keep ⟨adm, ((setContract_ne _ _ h1).trans (congrFun (moveCoins_inv hmv).contracts t)).trans ht⟩
  | inst sender admin codeId m funds id kk adm2 w1 s1 fs1 hk hadm hnew hmv hx =>
    have h1 : t ≠ c.addrOf w.next := by rintro rfl; rw [ht] at hnew; cases hnew
    exact keep ⟨adm, ((setContract_ne _ _ h1).trans (congrFun (moveCoins_inv hmv).contracts t)).trans ht⟩
  | migrate sender target codeId id k me s1 hk hres hc =>
    by_cases h1 : t = me
    · subst h1
      rw [ht] at hc
      cases hc
      have : migrateState k (.token s) = .other := by cases k <;> rfl
      exact .inl ⟨some sender, by simp [World.setState, this]⟩
    · exact keep ⟨adm, (setContract_ne _ _ h1).trans ht⟩
  | admin sender target new id adm2 me s1 hres hc _ =>
    by_cases h1 : t = me
    · subst h1
      rw [ht] at hc
      cases hc
      exact keep ⟨adm2, setContract_self _ _ _⟩
    · exact keep ⟨adm, (setContract_ne _ _ h1).trans ht⟩
  | replyPair me _ _ admin s1 s' r hc hx | replyFactory me _ _ admin s1 s' r hc hx =>
    have h1 : t ≠ me := by rintro rfl; rw [ht] at hc; cases hc
    exact keep ⟨adm, (setContract_ne _ _ h1).trans ht⟩

/-- What a deposit makes a pair take. -/
theorem asked_provide {c : Chain} (hl : c.Lawful) {U t me sender : Addr} {v : World} {s : Pair.State} {q : Querier} {assets : Asset × Asset}
    {p : Asset × Asset} {d0 d1 : Nat} {lt : Addr} {dst : Str} {x : Nat} (hp : s.queryPools q c.api me = .ok p)
    (h0 : Pair.depositFor assets p.1.info = .ok d0) (h1 : Pair.depositFor assets p.2.info = .ok d1) :
    askedAll c U t v (frames me { messages := (Pair.collectMsg me sender p.1.info d0 ++ Pair.collectMsg me sender p.2.info d1 ++
      [CosmosMsg.exec lt (.mint dst x) []]).map plain }) ≤ if sender = U then pledged c t s assets else 0 := by
  obtain ⟨n0, n1, _, _⟩ := queryPools_eq_ok.mp hp
  have part : ∀ {raw : AssetInfoRaw} {i : AssetInfo} {d : Nat}, raw.toNormal c.api = .ok i → Pair.depositFor assets i = .ok d →
      askedAll c U t v ((Pair.collectMsg me sender i d).map fun m => .msg me (plain m)) ≤
        if sender = U then (if raw.toNormal c.api = .ok (.token t) then PairSite.named (.token t) assets else 0) else 0 := by
    intro raw i d hn hd
    cases i with
    | native dn => exact Nat.zero_le _
    | token t0 =>
      simp only [Pair.collectMsg, List.map_cons, List.map_nil, askedAll, List.sum_cons, List.sum_nil, Nat.add_zero, asked, plain]
      split
      · rename_i hh
        obtain ⟨_, rfl, hr⟩ := hh
        have ht0 : t = t0 := by
          cases raw with
          | native _ => simp [AssetInfoRaw.toNormal] at hn
          | token b =>
            simp only [AssetInfoRaw.toNormal, bind_eq_ok, humanize_eq_ok, pure_eq_ok, AssetInfo.token.injEq] at hn
            obtain ⟨t1, h2, rfl⟩ := hn
            exact resolve_human hl h2 hr
        subst ht0
        rw [if_pos rfl, if_pos hn, PairSite.named_eq hd]
      · exact Nat.zero_le _
  have e : frames me { messages := (Pair.collectMsg me sender p.1.info d0 ++ Pair.collectMsg me sender p.2.info d1 ++
      [CosmosMsg.exec lt (.mint dst x) []]).map plain } = ((Pair.collectMsg me sender p.1.info d0).map fun m => .msg me (plain m)) ++
      ((Pair.collectMsg me sender p.2.info d1).map fun m => .msg me (plain m)) ++ [.msg me (plain (.exec lt (.mint dst x) []))] := by
    simp [frames, Function.comp_def]
  rw [e, askedAll_append, askedAll_append]
  have a0 := part n0 h0
  have a1 := part n1 h1
  have a2 : askedAll c U t v [.msg me (plain (.exec lt (.mint dst x) []))] = 0 := by simp [askedAll, asked, plain]
  unfold pledged
  split at a0 <;> rename_i hs
  · simp only [if_pos hs] at a1 ⊢
    omega
  · simp only [if_neg hs] at a1 ⊢
    omega

theorem asked_into {c : Chain} {U t me : Addr} {v : World} {x : Asset} {r : Addr} : asked c U t v (.msg me (plain (x.intoMsg r))) = 0 := by
  unfold Asset.intoMsg
  split <;> rfl

/-- What the messages a step adds are going to take. -/
theorem asked_new {c : Chain} (hl : c.Lawful) {adv : Adv} {n : Nat} {w w' : World} {f : Frame} {fs : List Frame}
    (h : StepI c adv n w f w' fs) (U t : Addr) : askedAll c U t w' fs ≤ putForward c U t (w, f) := by
  have hb := @pair_back _ _ _ _ _ _ _ h
  have quiet : (∀ g ∈ fs, (∃ sm, g = .msg g.actor sm) → ¬ PairAt w g.actor) → askedAll c U t w' fs ≤ putForward c U t (w, f) := by
    intro hq
    rw [askedAll_none]
    · exact Nat.zero_le _
    · intro g hg
      by_cases hp : PairAt w' g.actor
      · obtain ⟨adm, s, hp⟩ := hp
        rcases hb hp with ⟨s0, adm0, h1, _⟩ | ⟨_, _, code, id, cr, h1⟩
        · cases g with
          | reply => rfl
          | msg a sm => exact absurd ⟨adm0, s0, h1⟩ (hq _ hg ⟨sm, rfl⟩)
        · rw [h1] at hg
          rcases List.mem_cons.mp hg with h2 | h2
          · rw [h2]; rfl
          · obtain ⟨_, _, rfl⟩ := mem_replyFrame h2
            rfl
      · exact asked_none hp
  have acts : ∀ {me : Addr} {sm : SubMsg} {g : Frame} {gs : List Frame} {s : Addr} {id : Option Nat} {o : Option Addr},
      (∀ g ∈ gs, g.actor = me) → g ∈ gs ++ replyFrame s id o → (∃ sm, g = .msg g.actor sm) → g.actor = me := by
    intro me sm g gs s id o h1 h2 ⟨sm', h3⟩
    rcases List.mem_append.mp h2 with h2 | h2
    · exact h1 g h2
    · obtain ⟨_, _, rfl⟩ := mem_replyFrame h2
      cases h3
  have fr : ∀ {me : Addr} {r : Response}, ∀ g ∈ frames me r, g.actor = me := by
    intro me r g hg
    obtain ⟨_, _, rfl⟩ := mem_frames hg
    rfl
  cases h with
  | bank | migrate | admin =>
    rw [askedAll_reply]
    exact Nat.zero_le _
  | token _ _ _ _ _ me _ _ _ _ _ _ _ _ hc | factory _ _ _ _ _ me _ _ _ _ _ _ _ _ hc | router _ _ _ _ _ me _ _ _ _ _ _ _ _ hc =>
    refine quiet fun g hg hm ⟨_, _, hp⟩ => ?_
    rw [acts (sm := plain (.bankSend [] [])) fr hg hm, hc] at hp
    cases hp
  | other _ _ _ _ _ me _ _ ms _ _ hc =>
    refine quiet fun g hg hm ⟨_, _, hp⟩ => ?_
    rw [acts (me := me) (sm := plain (.bankSend [] [])) (fun g hg => by obtain ⟨_, _, rfl⟩ := List.mem_map.mp hg; rfl) hg hm, hc] at hp
    cases hp
  | inst _ _ _ _ _ _ _ _ _ _ _ _ _ hnew _ hx =>
    refine quiet fun g hg hm ⟨_, _, hp⟩ => ?_
    rw [acts (me := c.addrOf w.next) (sm := plain (.bankSend [] [])) (fun g hg => by
      obtain ⟨_, rfl⟩ := callInstantiate_frames hx g hg; rfl) hg hm, hnew] at hp
    cases hp
  | replyPair me _ _ _ s s' r hc hx =>
    have : r.messages = [] := by
      unfold Pair.reply at hx
      simp only [bind_eq_ok, pure_eq_ok, Prod.mk.injEq] at hx
      obtain ⟨_, _, _, _, _, rfl⟩ := hx
      rfl
    simp [frames, this, askedAll]
  | replyFactory me _ _ _ _ _ _ hc =>
    refine quiet fun g hg hm ⟨_, _, hp⟩ => ?_
    rw [fr g hg, hc] at hp
    cases hp
  | replyOther me _ _ _ ms hc =>
    refine quiet fun g hg hm ⟨_, _, hp⟩ => ?_
    obtain ⟨_, _, rfl⟩ := List.mem_map.mp hg
    simp only [Frame.actor] at hp
    rw [hc] at hp
    cases hp
  | pair sender target m funds id me w1 adm s s' r hme hmv hr hc hx =>
    rw [askedAll_append, askedAll_reply, Nat.add_zero]
    rcases Pair.execute_inv hx with ⟨_, _, _, _, _, rfl, hx⟩ | ⟨_, _, rfl, hx⟩ | ⟨assets, tol, receiver, rfl, hx⟩
    · obtain ⟨_, _, o, a, od, ad, x, sp, cm, hk⟩ := Pair.receive_swap_inv (funds := funds) hx
      rw [askedAll_none]
      · exact Nat.zero_le _
      · intro g hg
        obtain ⟨sm, h1, rfl⟩ := mem_frames hg
        rw [hk.h_resp] at h1
        simp only at h1
        split at h1
        · rw [List.mem_singleton.mp h1]
          exact asked_into
        · cases h1
    · obtain ⟨_, _, _, p0, p1, lt, ti, ratio, r0, r1, hk⟩ := Pair.receive_withdraw_inv (funds := funds) hx
      rw [askedAll_none]
      · exact Nat.zero_le _
      · intro g hg
        obtain ⟨sm, h1, rfl⟩ := mem_frames hg
        rw [hk.h_resp] at h1
        simp only [List.mem_cons, List.not_mem_nil, or_false] at h1
        rcases h1 with rfl | rfl | rfl
        · exact asked_into
        · exact asked_into
        · rfl
    · obtain ⟨_, p0, p1, d0, d1, lt, ti, share, hk⟩ := Pair.provide_inv hx
      have := asked_provide (U := U) (t := t) (v := w1.setState me adm (.pair s')) (sender := sender) (lt := lt) (dst := receiver.getD sender)
        (x := share) hl hk.h_pools hk.h_d0 hk.h_d1
      rw [hk.h_resp]
      refine this.trans ?_
      simp only [putForward, hme, hc]
      exact Nat.le_refl _

/-- `U` has allowed only contracts of the project (in `A`) to spend the token `t`. -/
def Gave (A : Addr → Prop) (t U : Addr) (v : World) (s : TokenState) : Prop :=
  (∃ adm, v.contracts t = some ⟨adm, .token s⟩) ∧ ∀ sp, allowanceOf s U sp ≠ 0 → A sp ∧ House v sp

/-- The token, or a spender, has been replaced by foreign code. -/
def Bad (A : Addr → Prop) (t : Addr) (v : World) : Prop :=
  ∃ a adm, v.contracts a = some ⟨adm, .other⟩ ∧ (a = t ∨ A a)

theorem Bad.step {A : Addr → Prop} {t : Addr} {c : Chain} {adv : Adv} {n : Nat} {w w' : World} {f : Frame} {fs : List Frame}
    (hb : Bad A t w) (h : StepI c adv n w f w' fs) : Bad A t w' := by
  obtain ⟨a, adm, h1, h2⟩ := hb
  obtain ⟨adm', h3, _⟩ := other_step h h1
  exact ⟨a, adm', h3, h2⟩

theorem not_pair_of_user {c : Chain} {w : World} (hw : ContractsAt c w) {a : Addr} (hu : c.IsUser a) : ¬ PairAt w a := by
  rintro ⟨adm, s, h⟩
  obtain ⟨n, _, h⟩ := hw _ _ h
  exact hu.1 n h.symm

theorem Gave.step {c : Chain} (hl : c.Lawful) {A : Addr → Prop} {t U : Addr} {adv : Adv} {n : Nat} {w w' : World} {f : Frame}
    {fs rest : List Frame} {s : TokenState} (hq : Quiet c w (f :: rest)) (h : StepI c adv n w f w' fs) (hs : Gave A t U w s)
    (hg : ∀ sp, GrantsTo c t U sp f → A sp ∧ House w sp) :
    Bad A t w' ∨ ∃ s', Gave A t U w' s' ∧ s.balances.getD0 U + askedAll c U t w' (fs ++ rest) ≤
      s'.balances.getD0 U + askedAll c U t w (f :: rest) + cost c U t (w, f) := by
  obtain ⟨⟨adm, ht⟩, ha⟩ := hs
  have hi := hq.sane
  by_cases hb : Bad A t w'
  · exact .inl hb
  right
  have stay : ∀ sp, A sp → House w sp → House w' sp := fun sp h1 h2 =>
    (house_step h h2).resolve_right fun ⟨adm, h3⟩ => hb ⟨sp, adm, h3, .inr h1⟩
  have hrest : askedAll c U t w' rest ≤ askedAll c U t w rest := by
    refine askedAll_mono fun g hg ⟨adm', s', hp⟩ => ?_
    rcases pair_back h hp with ⟨s0, adm0, h1, _⟩ | ⟨h1, _⟩
    · exact ⟨adm0, s0, h1⟩
    · rcases hi.actors g (by simp [hg]) with hu | hc
      · exact absurd ⟨adm', s', hp⟩ (not_pair_of_user (hi.at_addr.step h) hu)
      · rw [h1] at hc
        cases hc
  have hnew := asked_new hl h U t
  rw [askedAll_append, askedAll_cons]
  have ec : cost c U t (w, f) = handedOver c U t f + putForward c U t (w, f) := rfl
  rw [ec]
  rcases tok_step h ht with ⟨adm', ho⟩ | ⟨adm', s', ht', hst⟩
  · exact absurd ⟨t, adm', ho, .inl rfl⟩ hb
  · refine ⟨s', ⟨⟨adm', ht'⟩, fun sp hsp => ?_⟩, ?_⟩
    · have : A sp ∧ House w sp := by
        rcases hst with rfl | ⟨sender, target, m, funds, id, r, rfl, hr, hx⟩
        · exact ha sp hsp
        · rcases allow_execute hx hsp with h1 | ⟨rfl, x, e, rfl⟩
          · exact ha sp h1
          · exact hg sp ⟨rfl, rfl, hr⟩
      exact ⟨this.1, stay sp this.1 this.2⟩
    · have key : s.balances.getD0 U ≤ s'.balances.getD0 U + asked c U t w f + handedOver c U t f := by
        rcases hst with rfl | ⟨sender, target, m, funds, id, r, rfl, hr, hx⟩
        · omega
        · obtain ⟨h1, h2⟩ := loss_execute (U := U) hx
          have e1 : handedOver c U t (.msg sender ⟨.exec target m funds, id⟩) = if sender = U then spends m else 0 := by
            simp [handedOver, hr]
          rw [e1]
          by_cases h0 : takes U m = 0
          · omega
          · have hd : Draws (.exec target m funds) := by
              cases m <;> first | trivial | exact absurd rfl h0
            obtain ⟨admp, sp, hp⟩ := hq.frames sender ⟨.exec target m funds, id⟩ List.mem_cons_self (ha sender (by omega)).2 hd
            have hf := hi.pairFrames sender admp sp hp (.msg sender ⟨.exec target m funds, id⟩) (by simp) rfl
            cases hf with
            | out m' ho =>
              cases m <;> simp only [Pair.OutMsg] at ho <;> simp only [takes, ne_eq, not_true] at h0
              rename_i o dst x
              simp only [takes] at h1
              have e2 : asked c U t w (.msg sender ⟨.exec target (.transferFrom o dst x) funds, none⟩) = if o = U then x else 0 := by
                have hp' : PairAt w sender := ⟨admp, sp, hp⟩
                simp [asked, hp', hr]
              rw [e2]
              omega
      omega

theorem Bad.run {A : Addr → Prop} {t : Addr} {c : Chain} {adv : Adv} {n n' : Nat} {w w' : World} {fs : List Frame}
    (hb : Bad A t w) (h : run c adv n w fs = .ok (n', w')) : Bad A t w' :=
  run_induct (P := fun v _ => Bad A t v) (fun _ _ _ _ _ _ h1 h2 => h1.step h2) hb h

theorem trace_bad {c : Chain} {adv : Adv} {A : Addr → Prop} {t : Addr} : ∀ {n : Nat} {w : World} {fs : List Frame}, Bad A t w →
    ∀ e ∈ trace c adv n w fs, Bad A t e.1 := by
  intro n
  induction n with
  | zero => intro w fs _ e he; cases fs <;> simp [trace] at he
  | succ n ih =>
    intro w fs hb e he
    cases fs with
    | nil => simp [trace] at he
    | cons f fs =>
      cases hs : Halo.step c adv n w f with
      | error x =>
        simp only [trace, hs, List.mem_singleton] at he
        subst he
        exact hb
      | ok r =>
        obtain ⟨w1, fs1⟩ := r
        rw [trace_cons hs] at he
        rcases List.mem_cons.mp he with rfl | he
        · exact hb
        · exact ih (hb.step (step_inv hs)) e he

theorem Gave.run {c : Chain} (hl : c.Lawful) {A : Addr → Prop} {t U : Addr} {adv : Adv} :
    ∀ {n n' : Nat} {w w' : World} {fs : List Frame} {s : TokenState}, Quiet c w fs → Gave A t U w s →
      (∀ e ∈ trace c adv n w fs, ∀ sp, GrantsTo c t U sp e.2 → A sp ∧ House e.1 sp) → run c adv n w fs = .ok (n', w') →
      Bad A t w' ∨ ∃ s', Gave A t U w' s' ∧ s.balances.getD0 U ≤
        s'.balances.getD0 U + askedAll c U t w fs + ((trace c adv n w fs).map (cost c U t)).sum := by
  intro n
  induction n with
  | zero =>
    intro n' w w' fs s _ hg _ h
    cases fs with
    | nil => cases h; exact .inr ⟨s, hg, by omega⟩
    | cons => cases h
  | succ n ih =>
    intro n' w w' fs s hi hg ht h
    cases fs with
    | nil => cases h; exact .inr ⟨s, hg, by omega⟩
    | cons f fs =>
      obtain ⟨m, w1, fs1, he, hs, hr⟩ := run_cons_inv h
      cases he
      have hs' := step_inv hs
      rw [trace_cons hs] at ht ⊢
      rcases Gave.step hl hi hs' hg (ht (w, f) (by simp)) with hb | ⟨s1, g1, g2⟩
      · exact .inl (hb.run hr)
      · rcases ih (hi.step hs') g1 (fun e he => ht e (by simp [he])) hr with hb | ⟨s2, g3, g4⟩
        · exact .inl hb
        · refine .inr ⟨s2, g3, ?_⟩
          rw [List.map_cons, List.sum_cons]
          omega

theorem Gave.hist {c : Chain} (hl : c.Lawful) {A : Addr → Prop} {t U : Addr} {w w' : World} {tr : List (World × Frame)} {s : TokenState}
    (hw : Reachable c w) (hh : Hist c w tr w') (hg : Gave A t U w s) (ht : ∀ e ∈ tr, ∀ sp, GrantsTo c t U sp e.2 → A sp ∧ House e.1 sp) :
    Bad A t w' ∨ ∃ s', Gave A t U w' s' ∧ s.balances.getD0 U ≤ s'.balances.getD0 U + (tr.map (cost c U t)).sum := by
  induction hh with
  | refl => exact .inr ⟨s, hg, by omega⟩
  | block tr v b h ih => exact ih ht
  | env tr v b h _ ih => exact ih ht
  | tx tr adv gas v w1 signer m h hu hx ih =>
    obtain ⟨n', hr⟩ := runTx_inv hx
    rcases ih fun e he => ht e (by simp [he]) with hb | ⟨s1, g1, g2⟩
    · exact .inl (hb.run hr)
    · have hv : Sane c v [] := (hw.later h.later).sane
      rcases Gave.run hl (Quiet.start hv hu m) g1 (fun e he => ht e (by simp [he])) hr with hb | ⟨s2, g3, g4⟩
      · exact .inl hb
      · refine .inr ⟨s2, g3, ?_⟩
        have e0 : askedAll c U t v [.msg signer (plain m)] = 0 :=
          askedAll_none fun f hf => by
            rw [List.mem_singleton.mp hf]
            exact asked_none (not_pair_of_user hv.at_addr hu)
        rw [List.map_append, List.sum_append]
        omega

/-- The same at every moment of a run. -/
theorem Gave.run_all {c : Chain} (hl : c.Lawful) {A : Addr → Prop} {t U : Addr} {adv : Adv} :
    ∀ {n : Nat} {w : World} {fs : List Frame} {s : TokenState}, Quiet c w fs → Gave A t U w s →
      (∀ e ∈ trace c adv n w fs, ∀ sp, GrantsTo c t U sp e.2 → A sp ∧ House e.1 sp) → ∀ e ∈ trace c adv n w fs,
      Bad A t e.1 ∨ ∃ s', Gave A t U e.1 s' ∧ s.balances.getD0 U ≤
        s'.balances.getD0 U + askedAll c U t w fs + ((trace c adv n w fs).map (cost c U t)).sum := by
  intro n
  induction n with
  | zero => intro w fs s _ _ _ e he; cases fs <;> simp [trace] at he
  | succ n ih =>
    intro w fs s hi hg ht e he
    cases fs with
    | nil => simp [trace] at he
    | cons f fs =>
      cases hs : Halo.step c adv n w f with
      | error x =>
        simp only [trace, hs, List.mem_singleton] at he
        subst he
        exact .inr ⟨s, hg, by omega⟩
      | ok r =>
        obtain ⟨w1, fs1⟩ := r
        have hs' := step_inv hs
        rw [trace_cons hs] at ht he ⊢
        rcases List.mem_cons.mp he with rfl | he
        · exact .inr ⟨s, hg, by omega⟩
        · rcases Gave.step hl hi hs' hg (ht (w, f) (by simp)) with hb | ⟨s1, g1, g2⟩
          · left
            exact trace_bad hb e he
          · rcases ih (hi.step hs') g1 (fun e he => ht e (by simp [he])) e he with hb | ⟨s2, g3, g4⟩
            · exact .inl hb
            · refine .inr ⟨s2, g3, ?_⟩
              rw [List.map_cons, List.sum_cons]
              omega

/-- The same at every moment of a history. -/
theorem Gave.hist_all {c : Chain} (hl : c.Lawful) {A : Addr → Prop} {t U : Addr} {w w' : World} {tr : List (World × Frame)} {s : TokenState}
    (hw : Reachable c w) (hh : Hist c w tr w') (hg : Gave A t U w s) (ht : ∀ e ∈ tr, ∀ sp, GrantsTo c t U sp e.2 → A sp ∧ House e.1 sp) :
    ∀ e ∈ tr, Bad A t e.1 ∨ ∃ s', Gave A t U e.1 s' ∧ s.balances.getD0 U ≤ s'.balances.getD0 U + (tr.map (cost c U t)).sum := by
  induction hh with
  | refl => intro e he; cases he
  | block tr v b h ih => exact ih ht
  | env tr v b h _ ih => exact ih ht
  | tx tr adv gas v w1 signer m h hu hx ih =>
    intro e he
    rcases List.mem_append.mp he with he | he
    · rcases ih (fun e he => ht e (by simp [he])) e he with hb | ⟨s1, g1, g2⟩
      · exact .inl hb
      · refine .inr ⟨s1, g1, ?_⟩
        rw [List.map_append, List.sum_append]
        omega
    · rcases Gave.hist hl hw h hg (fun e he => ht e (by simp [he])) with hb | ⟨s1, g1, g2⟩
      · exact .inl (trace_bad hb e he)
      · have hv : Sane c v [] := (hw.later h.later).sane
        rcases Gave.run_all hl (Quiet.start hv hu m) g1 (fun e he => ht e (by simp [he])) e he with hb | ⟨s2, g3, g4⟩
        · exact .inl hb
        · refine .inr ⟨s2, g3, ?_⟩
          have e0 : askedAll c U t v [.msg signer (plain m)] = 0 :=
            askedAll_none fun f hf => by
              rw [List.mem_singleton.mp hf]
              exact asked_none (not_pair_of_user hv.at_addr hu)
          rw [List.map_append, List.sum_append]
          omega

/-! ## One transaction -/

/-- A message that asks for no reply adds messages of contracts only. -/
theorem plain_step {c : Chain} {adv : Adv} {n : Nat} {w w' : World} {u : Addr} {m : CosmosMsg} {fs : List Frame}
    (h : StepI c adv n w (.msg u (plain m)) w' fs) : ∀ g ∈ fs, (w'.contracts g.actor).isSome = true := by
  intro g hg
  generalize hf : Frame.msg u (plain m) = f at h
  cases h with
  | bank | migrate | admin => cases hf; cases hg
  | token _ _ _ _ _ me | pair _ _ _ _ _ me | factory _ _ _ _ _ me | router _ _ _ _ _ me =>
    cases hf
    rcases List.mem_append.mp hg with hg | hg
    · obtain ⟨m, _, rfl⟩ := mem_frames hg
      simp [Frame.actor, World.setState]
    · cases hg
  | other _ _ _ _ _ me w1 admin ms _ hm hc =>
    cases hf
    rcases List.mem_append.mp hg with hg | hg
    · simp only [List.mem_map] at hg
      obtain ⟨m, _, rfl⟩ := hg
      simp [Frame.actor, (moveCoins_inv hm).contracts, hc]
    · cases hg
  | inst _ _ _ _ _ _ _ _ _ _ fs _ _ _ _ hx =>
    cases hf
    rcases List.mem_append.mp hg with hg | hg
    · obtain ⟨m, rfl⟩ := callInstantiate_frames hx _ hg
      simp [Frame.actor]
    · cases hg
  | replyPair | replyFactory | replyOther => cases hf

/-- From then on contracts act. -/
theorem trace_contracts {c : Chain} {adv : Adv} : ∀ {n : Nat} {w : World} {fs : List Frame}, ContractsAt c w →
    (∀ g ∈ fs, (w.contracts g.actor).isSome = true) → ∀ e ∈ trace c adv n w fs, ∀ U, c.IsUser U → e.2.actor ≠ U := by
  intro n
  induction n with
  | zero => intro w fs _ _ e he; cases fs <;> simp [trace] at he
  | succ n ih =>
    intro w fs hw hfs e he U hU
    cases fs with
    | nil => simp [trace] at he
    | cons f fs =>
      cases hs : step c adv n w f with
      | error x =>
        simp only [trace, hs, List.mem_singleton] at he
        subst he
        rintro rfl
        obtain ⟨k, hk⟩ := Option.isSome_iff_exists.mp (hfs f (by simp))
        obtain ⟨j, _, hj⟩ := hw _ _ hk
        exact hU.1 j hj.symm
      | ok r =>
        obtain ⟨w1, fs1⟩ := r
        rw [trace_cons hs] at he
        have hs' := step_inv hs
        rcases List.mem_cons.mp he with rfl | he
        · rintro rfl
          obtain ⟨k, hk⟩ := Option.isSome_iff_exists.mp (hfs f (by simp))
          obtain ⟨j, _, hj⟩ := hw _ _ hk
          exact hU.1 j hj.symm
        · refine ih (hw.step hs') (fun g hg => ?_) e he U hU
          rcases List.mem_append.mp hg with hg | hg
          · rcases actor_step hs' g hg with h1 | h1
            · rw [h1]
              exact isSome_step hs' (hfs f (by simp))
            · exact h1
          · exact isSome_step hs' (hfs g (by simp [hg]))

theorem cost_other {c : Chain} {U t : Addr} {e : World × Frame} (h : e.2.actor ≠ U) : cost c U t e = 0 := by
  obtain ⟨v, f⟩ := e
  have h1 : handedOver c U t f = 0 := by
    unfold handedOver
    split
    · exact if_neg fun h' => h h'.1
    · rfl
  have h2 : putForward c U t (v, f) = 0 := by
    unfold putForward
    split
    · rename_i hf
      cases hf
      exact if_neg h
    · rfl
  show handedOver c U t f + putForward c U t (v, f) = 0
  rw [h1, h2]

/-- A transaction costs its signer what its message costs. -/
theorem cost_tx {c : Chain} {adv : Adv} {n : Nat} {w : World} (hw : ContractsAt c w) {U t : Addr} (hU : c.IsUser U) (m : CosmosMsg) :
    ((trace c adv n w [.msg U (plain m)]).map (cost c U t)).sum ≤ cost c U t (w, .msg U (plain m)) := by
  cases n with
  | zero => simp [trace]
  | succ n =>
    cases hs : step c adv n w (.msg U (plain m)) with
    | error x => simp [trace, hs]
    | ok r =>
      obtain ⟨w1, fs1⟩ := r
      rw [trace_cons hs, List.map_cons, List.sum_cons, List.append_nil]
      have hs' := step_inv hs
      have : ((trace c adv n w1 fs1).map (cost c U t)).sum = 0 := by
        rw [List.sum_eq_zero]
        intro x hx
        obtain ⟨e, he, rfl⟩ := List.mem_map.mp hx
        exact cost_other (trace_contracts (hw.step hs') (plain_step hs') e he U hU)
      omega

end ApproveL
end Halo
