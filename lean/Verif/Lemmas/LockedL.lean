import Verif.Lemmas.StillL
import Verif.Spec.Locked
/-! # Money a contract cannot spend (helper lemmas for C61) -/

namespace Halo
open _root_.Halo.Spec

/-- Token messages that lower the sender's balance. -/
def Debits : ExecMsg → Prop
  | .transfer _ _ => True
  | .send _ _ _ => True
  | .burn _ => True
  | _ => False

/-- The frame can lower its actor's holding of `i`. -/
def Takes (c : Chain) (i : AssetInfo) : Frame → Prop
  | .msg _ ⟨.bankSend _ coins, _⟩ => ∃ k ∈ coins, i = .native k.denom
  | .msg _ ⟨.exec t m funds, _⟩ => (∃ k ∈ funds, i = .native k.denom) ∨
      ∃ x, i = .token x ∧ c.api.resolve t = .ok x ∧ Debits m
  | .msg _ ⟨.inst _ _ _ funds, _⟩ => ∃ k ∈ funds, i = .native k.denom
  | _ => False

theorem resolve_human {c : Chain} (hl : c.Lawful) {b : Bytes} {t x : Str} (h : c.api.human b = some t)
    (hr : c.api.resolve t = .ok x) : x = t := by
  unfold Api.resolve at hr
  simp only [bind_eq_ok, canonicalize_eq_ok, humanize_eq_ok] at hr
  obtain ⟨b', h1, h2⟩ := hr
  have h3 := hl.canon_human _ _ h
  rw [h1] at h3
  cases h3
  rw [h] at h2
  exact (Option.some.inj h2).symm

/-- A pair pays out its own assets only. -/
theorem pay_spends {c : Chain} (hl : c.Lawful) {st : Pair.State} {a : Addr} {j : AssetInfo} {y : Nat}
    {raw : AssetInfoRaw}
    (hr : raw = st.assetInfos.1 ∨ raw = st.assetInfos.2) (hn : raw.toNormal c.api = .ok j) {dst : Addr}
    {i : AssetInfo} (h : Takes c i (.msg a (plain (({ info := j, amount := y } : Asset).intoMsg dst)))) : CanSpend c (.pair st) i := by
  unfold Asset.intoMsg at h
  cases raw with
  | native d =>
    simp only [AssetInfoRaw.toNormal, Except.ok.injEq] at hn
    subst hn
    obtain ⟨k, hk, rfl⟩ := h
    simp only [List.mem_singleton] at hk
    subst hk
    rcases hr with e | e
    · exact .inl e.symm
    · exact .inr e.symm
  | token b =>
    simp only [AssetInfoRaw.toNormal, bind_eq_ok, humanize_eq_ok, pure_eq_ok] at hn
    obtain ⟨t, ht, rfl⟩ := hn
    rcases h with ⟨k, hk, _⟩ | ⟨x, rfl, hx, _⟩
    · cases hk
    · have := resolve_human hl ht hx
      subst this
      refine ⟨b, ?_, ht⟩
      rcases hr with e | e
      · exact .inl e.symm
      · exact .inr (.inl e.symm)

theorem Pair.execute_spends {c : Chain} (hl : c.Lawful) {q : Querier} {me : Addr} {st st' : Pair.State} {caller : Addr}
    {funds : List Coin} {m : ExecMsg} {r : Response} (h : Pair.execute c.api q me st caller funds m = .ok (st', r))
    {i : AssetInfo} : ∀ sm ∈ r.messages, Takes c i (.msg me sm) → CanSpend c (.pair st) i := by
  intro sm hsm ht
  rcases Pair.execute_inv h with ⟨sender, amount, bp, ms, dst, rfl, h⟩ | ⟨sender, amount, rfl, h⟩ |
      ⟨assets, tol, receiver, rfl, h⟩
  · obtain ⟨rfl, _, o, a, od, ad, r', s, cm, hs⟩ := Pair.receive_swap_inv h
    rw [hs.h_resp] at hsm
    dsimp only at hsm
    split at hsm
    · simp only [List.mem_singleton] at hsm
      subst hsm
      rcases hs.h_pools with ⟨h1, _⟩ | ⟨h1, _⟩
      · obtain ⟨_, h2, _⟩ := queryPools_eq_ok.mp h1
        exact pay_spends hl (.inr rfl) h2 ht
      · obtain ⟨h2, _⟩ := queryPools_eq_ok.mp h1
        exact pay_spends hl (.inl rfl) h2 ht
    · cases hsm
  · obtain ⟨rfl, _, _, p0, p1, lt, ti, ratio, r0, r1, hs⟩ := Pair.receive_withdraw_inv (funds := funds) h
    rw [hs.h_resp] at hsm
    obtain ⟨h2, h3, _⟩ := queryPools_eq_ok.mp hs.h_pools
    simp only [List.mem_cons, List.not_mem_nil, or_false] at hsm
    rcases hsm with rfl | rfl | rfl
    · exact pay_spends hl (.inl rfl) h2 ht
    · exact pay_spends hl (.inr rfl) h3 ht
    · rcases ht with ⟨k, hk, _⟩ | ⟨x, rfl, hx, _⟩
      · cases hk
      · have := resolve_human hl hs.h_lt hx
        subst this
        exact ⟨_, .inr (.inr rfl), hs.h_lt⟩
  · obtain ⟨rfl, p0, p1, d0, d1, lt, ti, share, hs⟩ := Pair.provide_inv h
    rw [hs.h_resp] at hsm
    simp only [List.mem_map, List.mem_append, List.mem_singleton] at hsm
    obtain ⟨cm, hcm, rfl⟩ := hsm
    have coll : ∀ {j : AssetInfo} {d : Nat}, cm ∈ Pair.collectMsg me caller j d → False := by
      intro j d hc
      unfold Pair.collectMsg at hc
      split at hc
      · simp only [List.mem_singleton] at hc
        subst hc
        rcases ht with ⟨k, hk, _⟩ | ⟨x, rfl, hx, hd⟩
        · cases hk
        · exact hd
      · cases hc
    rcases hcm with (hcm | hcm) | rfl
    · exact (coll hcm).elim
    · exact (coll hcm).elim
    · rcases ht with ⟨k, hk, _⟩ | ⟨x, rfl, hx, hd⟩
      · cases hk
      · exact hd.elim

/-- The same contract: a pair with the same storage, a token, a factory. -/
def Alike : CState → CState → Prop
  | .pair s, k => k = .pair s
  | .token _, k => ∃ t, k = .token t
  | .factory _, k => ∃ t, k = .factory t
  | _, _ => False

/-- A pending frame of the contract takes nothing, and a pair awaits no reply. -/
def Calm (c : Chain) (i : AssetInfo) (k0 : CState) (f : Frame) : Prop :=
  ¬ Takes c i f ∧ ∀ s, k0 = .pair s → ∃ b sm, f = .msg b sm ∧ sm.replyId = none

/-- The contract at `a` is still itself, the asset still honest, and at least `x` are there. -/
structure Keeps (c : Chain) (a : Addr) (k0 : CState) (i : AssetInfo) (x : Nat) (v : World) (fs : List Frame) : Prop where
  here : ∃ adm k, v.contracts a = some ⟨adm, k⟩ ∧ Alike k0 k
  honest : Honest v i
  le : x ≤ held v i a
  calm : ∀ f ∈ fs, f.actor = a → Calm c i k0 f

/-- The code at `a`, or the asset's code, was replaced. -/
def Gone (v : World) (a : Addr) (i : AssetInfo) : Prop :=
  (∃ adm, v.contracts a = some ⟨adm, .other⟩) ∨ ∃ t adm, i = .token t ∧ v.contracts t = some ⟨adm, .other⟩

theorem Gone.step {c : Chain} {adv : Adv} {n : Nat} {w w' : World} {f : Frame} {fs : List Frame} {a : Addr} {i : AssetInfo}
    (hg : Gone w a i) (h : StepI c adv n w f w' fs) : Gone w' a i := by
  rcases hg with ⟨adm, hg⟩ | ⟨t, adm, ht, hg⟩
  · obtain ⟨adm', h1, _⟩ := other_step h hg
    exact .inl ⟨adm', h1⟩
  · obtain ⟨adm', h1, _⟩ := other_step h hg
    exact .inr ⟨t, adm', ht, h1⟩

theorem coinSum_zero {d : Denom} {l : List Coin} (h : ¬ ∃ k ∈ l, AssetInfo.native d = .native k.denom) :
    coinSum d l = 0 := by
  induction l with
  | nil => rfl
  | cons k t ih =>
    have h1 : ¬ k.denom = d := fun e => h ⟨k, by simp, by rw [e]⟩
    have h2 := ih fun ⟨k', hk, e⟩ => h ⟨k', by simp [hk], e⟩
    simp [coinSum, h1, h2]

theorem Moved.keep {w w' : World} {src dst : Addr} {coins : List Coin} (h : Moved w w' src dst coins) {d : Denom}
    {a : Addr} (hn : src = a → ¬ ∃ k ∈ coins, AssetInfo.native d = .native k.denom) : w.bal d a ≤ w'.bal d a := by
  by_cases h1 : src = dst
  · rw [h.same h1]
  · by_cases h2 : src = a
    · subst h2
      have := h.src_bal h1 d
      rw [coinSum_zero (hn rfl)] at this
      omega
    · by_cases h3 : a = dst
      · subst h3
        rw [h.dst_bal h1]; omega
      · rw [h.others d a (Ne.symm h2) h3]

/-- Native balances. -/
theorem bal_calm {c : Chain} {adv : Adv} {n : Nat} {w w' : World} {f : Frame} {fs : List Frame}
    (h : StepI c adv n w f w' fs) {a : Addr} {d : Denom} (hf : f.actor = a → ¬ Takes c (.native d) f) :
    w.bal d a ≤ w'.bal d a := by
  cases h with
  | bank _ _ _ _ _ _ _ _ hm => exact (moveCoins_inv hm).keep fun e hk => hf e hk
  | token _ _ _ _ _ me _ _ _ _ _ _ hm | pair _ _ _ _ _ me _ _ _ _ _ _ hm | factory _ _ _ _ _ me _ _ _ _ _ _ hm
  | router _ _ _ _ _ me _ _ _ _ _ _ hm =>
    exact (moveCoins_inv hm).keep fun e hk => hf e (.inl hk)
  | other _ _ _ _ _ _ _ _ _ _ hm => exact (moveCoins_inv hm).keep fun e hk => hf e (.inl hk)
  | inst _ _ _ _ _ _ _ _ _ _ _ _ _ _ hm => exact (moveCoins_inv hm).keep fun e hk => hf e hk
  | migrate | admin | replyPair | replyFactory | replyOther => exact le_refl _

/-- Token balances. -/
theorem eff_calm {api : Api} {blk : Block} {s s' : TokenState} {sender a : Addr} {m : ExecMsg} {r : Response}
    (h : Token.Eff api blk s sender m s' r) (hn : sender = a → ¬ Debits m)
    (hs : ∀ sp, s.allowances.get (a, sp) = none) : s.balances.getD0 a ≤ s'.balances.getD0 a := by
  have mv : ∀ {src dst : Addr} {x : Nat}, src ≠ a →
      s.balances.getD0 a ≤ (Token.moveBal s.balances src dst x).getD0 a := by
    intro src dst x h
    rw [Token.moveBal_get, if_neg (Ne.symm h), ]
    split <;> omega
  have st : ∀ {b : Addr} {x : Nat}, b ≠ a → s.balances.getD0 a ≤ (s.balances.set b x).getD0 a := by
    intro b x h
    rw [AMap.getD0_set, if_neg (Ne.symm h)]
  cases h with
  | transfer => exact mv fun e => hn e trivial
  | send => exact mv fun e => hn e trivial
  | burn => exact st fun e => hn e trivial
  | mint dst x md =>
    simp only [AMap.getD0_set]
    split
    · rename_i e; subst e; omega
    · exact le_refl _
  | increase | decrease | decreaseZero | renounce | newMinter => exact le_refl _
  | transferFrom o _ _ al _ _ ha => exact mv fun e => by subst e; rw [hs] at ha; cases ha
  | sendFrom o _ _ _ al _ _ ha => exact mv fun e => by subst e; rw [hs] at ha; cases ha
  | burnFrom o _ al _ ha => exact st fun e => by subst e; rw [hs] at ha; cases ha

theorem Alike.step {c : Chain} {adv : Adv} {n : Nat} {w w' : World} {f : Frame} {fs : List Frame}
    (h : StepI c adv n w f w' fs) {a : Addr} {k0 k : CState} {adm : Option Addr} (ha : w.contracts a = some ⟨adm, k⟩)
    (hk : Alike k0 k) (hp : ∀ s, k0 = .pair s → ∀ id cr, f ≠ .reply a id cr) :
    (∃ adm' k', w'.contracts a = some ⟨adm', k'⟩ ∧ Alike k0 k') ∨ ∃ adm', w'.contracts a = some ⟨adm', .other⟩ := by
  have keep : w'.contracts a = w.contracts a → (∃ adm' k', w'.contracts a = some ⟨adm', k'⟩ ∧ Alike k0 k') ∨
      ∃ adm', w'.contracts a = some ⟨adm', .other⟩ := fun e => .inl ⟨adm, k, by rw [e]; exact ha, hk⟩
  cases h with
  | bank _ _ _ _ _ _ _ _ hmv => exact keep (by rw [(moveCoins_inv hmv).contracts])
  | other _ _ _ _ _ _ _ _ _ _ hmv => exact keep (by rw [(moveCoins_inv hmv).contracts])
  | replyOther => exact keep rfl
  | token _ _ _ _ _ me w1 admin s1 s' r _ hmv _ hc _ =>
    by_cases h1 : a = me
    · subst h1
      rw [hc] at ha; cases ha
      refine .inl ⟨_, _, setContract_self _ _ _, ?_⟩
      cases k0 <;> simp_all [Alike]
    · exact keep ((setContract_ne _ _ h1).trans (congrFun (moveCoins_inv hmv).contracts a))
  | pair _ _ _ _ _ me w1 admin s1 s' r _ hmv _ hc hx =>
    by_cases h1 : a = me
    · subst h1
      rw [hc] at ha; cases ha
      refine .inl ⟨_, _, setContract_self _ _ _, ?_⟩
      rw [(Pair.execute_out hx).1]
      exact hk
    · exact keep ((setContract_ne _ _ h1).trans (congrFun (moveCoins_inv hmv).contracts a))
  | factory _ _ _ _ _ me w1 admin s1 s' r _ hmv _ hc _ =>
    by_cases h1 : a = me
    · subst h1
      rw [hc] at ha; cases ha
      refine .inl ⟨_, _, setContract_self _ _ _, ?_⟩
      cases k0 <;> simp_all [Alike]
    · exact keep ((setContract_ne _ _ h1).trans (congrFun (moveCoins_inv hmv).contracts a))
  | router _ _ _ _ _ me w1 admin s1 s' r _ hmv _ hc _ =>
    by_cases h1 : a = me
    · subst h1
      rw [hc] at ha; cases ha
      cases k0 <;> simp_all [Alike]
    · exact keep ((setContract_ne _ _ h1).trans (congrFun (moveCoins_inv hmv).contracts a))
  | inst sender admin codeId m funds id kk adm2 w1 s1 fs1 hk' hadm hnew hmv hx =>
    have h1 : a ≠ c.addrOf w.next := by rintro rfl; rw [hnew] at ha; cases ha
    exact keep ((setContract_ne _ _ h1).trans (congrFun (moveCoins_inv hmv).contracts a))
  | migrate sender _ _ _ kk me s1 _ _ hc =>
    by_cases h1 : a = me
    · subst h1
      rw [hc] at ha; cases ha
      cases k0 with
      | pair s =>
        cases hk
        cases kk
        case pair => exact .inl ⟨_, _, setContract_self _ _ _, rfl⟩
        all_goals exact .inr ⟨_, setContract_self _ _ _⟩
      | token s => obtain ⟨t, rfl⟩ := hk; cases kk <;> exact .inr ⟨_, setContract_self _ _ _⟩
      | factory s =>
        obtain ⟨t, rfl⟩ := hk
        cases kk
        case factory => exact .inl ⟨_, _, setContract_self _ _ _, _, rfl⟩
        all_goals exact .inr ⟨_, setContract_self _ _ _⟩
      | router s => cases hk
      | other => cases hk
    · exact keep (setContract_ne _ _ h1)
  | admin _ _ _ _ _ me s1 _ hc _ =>
    by_cases h1 : a = me
    · subst h1
      rw [hc] at ha; cases ha
      exact .inl ⟨_, _, setContract_self _ _ _, hk⟩
    · exact keep (setContract_ne _ _ h1)
  | replyPair me id cr admin s1 s' r hc hx =>
    by_cases h1 : a = me
    · subst h1
      rw [hc] at ha; cases ha
      cases k0 with
      | pair s => exact absurd rfl (hp s rfl id cr)
      | _ => simp_all [Alike]
    · exact keep (setContract_ne _ _ h1)
  | replyFactory me _ _ admin s1 s' r hc hx =>
    by_cases h1 : a = me
    · subst h1
      rw [hc] at ha; cases ha
      refine .inl ⟨_, _, setContract_self _ _ _, ?_⟩
      cases k0 <;> simp_all [Alike]
    · exact keep (setContract_ne _ _ h1)

theorem Keeps.step {c : Chain} (hl : c.Lawful) {adv : Adv} {n : Nat} {w w' : World} {f : Frame} {fs rest : List Frame}
    {a : Addr} {k0 : CState} {i : AssetInfo} {x : Nat} (hns : ¬ CanSpend c k0 i) (hm : Mute c w (f :: rest))
    (hi : Keeps c a k0 i x w (f :: rest)) (h : StepI c adv n w f w' fs) :
    Keeps c a k0 i x w' (fs ++ rest) ∨ Gone w' a i := by
  obtain ⟨adm, k, ha, hk⟩ := hi.here
  have hf : f.actor = a → Calm c i k0 f := hi.calm f (by simp)
  have hne : k ≠ .other := by
    rintro rfl
    cases k0 <;> simp [Alike] at hk
  have hush : Hushed c w a := .inl ⟨adm, k, ha, hne⟩
  rcases Alike.step h ha hk (by
    rintro s hs id cr rfl
    obtain ⟨_, _, hc, _⟩ := (hf rfl).2 s hs
    cases hc) with ⟨adm', k', ha', hk'⟩ | hg
  swap
  · exact .inr (.inl hg)
  have hhon : Honest w' i ∧ x ≤ held w' i a ∨ Gone w' a i := by
    cases i with
    | native d => exact .inl ⟨(fun t ht => nomatch ht), le_trans hi.le (bal_calm h fun e => (hf e).1)⟩
    | token t =>
      obtain ⟨tadm, ts, ht⟩ := hi.honest t rfl
      have hle := hi.le
      rw [held_token ht] at hle
      have keep : w'.contracts t = w.contracts t → Honest w' (.token t) ∧ x ≤ held w' (.token t) a ∨ Gone w' a (.token t) :=
        fun e => .inl ⟨fun t' ht' => by cases ht'; exact ⟨tadm, ts, by rw [e]; exact ht⟩, by
          rw [held_token (e.trans ht)]; exact hle⟩
      cases h with
      | bank _ _ _ _ _ _ _ _ hmv => exact keep (by rw [(moveCoins_inv hmv).contracts])
      | other _ _ _ _ _ _ _ _ _ _ hmv => exact keep (by rw [(moveCoins_inv hmv).contracts])
      | replyOther => exact keep rfl
      | token sender target m funds id me w1 admin s1 s' r hme hmv _ hc hx =>
        by_cases h1 : t = me
        · subst h1
          rw [hc] at ht; cases ht
          left
          have e : (w1.setState t tadm (.token s')).contracts t = some ⟨tadm, .token s'⟩ := setContract_self _ _ _
          refine ⟨fun t' ht' => by cases ht'; exact ⟨_, _, e⟩, ?_⟩
          rw [held_token e]
          refine le_trans hle (eff_calm (Token.execute_inv hx) (fun e => ?_) (hm.silent t _ _ a hc hush))
          exact fun hd => (hf e).1 (.inr ⟨t, rfl, hme, hd⟩)
        · exact keep ((setContract_ne _ _ h1).trans (congrFun (moveCoins_inv hmv).contracts t))
      | pair _ _ _ _ _ me w1 admin s1 s' r _ hmv _ hc _ | factory _ _ _ _ _ me w1 admin s1 s' r _ hmv _ hc _
      | router _ _ _ _ _ me w1 admin s1 s' r _ hmv _ hc _ =>
        have h1 : t ≠ me := by rintro rfl; rw [hc] at ht; cases ht
        exact keep ((setContract_ne _ _ h1).trans (congrFun (moveCoins_inv hmv).contracts t))
      | inst sender admin codeId m funds id kk adm2 w1 s1 fs1 hk' hadm hnew hmv hx =>
        have h1 : t ≠ c.addrOf w.next := by rintro rfl; rw [hnew] at ht; cases ht
        exact keep ((setContract_ne _ _ h1).trans (congrFun (moveCoins_inv hmv).contracts t))
      | migrate sender _ _ _ kk me s1 _ _ hc =>
        by_cases h1 : t = me
        · subst h1
          rw [hc] at ht; cases ht
          refine .inr (.inr ⟨t, some sender, rfl, ?_⟩)
          cases kk <;> exact setContract_self _ _ _
        · exact keep (setContract_ne _ _ h1)
      | admin _ _ _ _ adm2 me s1 _ hc _ =>
        by_cases h1 : t = me
        · subst h1
          rw [hc] at ht; cases ht
          have e : (w.setState t adm2 (.token ts)).contracts t = some ⟨adm2, .token ts⟩ := setContract_self _ _ _
          exact .inl ⟨fun t' ht' => by cases ht'; exact ⟨_, _, e⟩, by rw [held_token e]; exact hle⟩
        · exact keep (setContract_ne _ _ h1)
      | replyPair me _ _ admin s1 s' r hc hx | replyFactory me _ _ admin s1 s' r hc hx =>
        have h1 : t ≠ me := by rintro rfl; rw [hc] at ht; cases ht
        exact keep (setContract_ne _ _ h1)
  rcases hhon with ⟨h1, h2⟩ | hg
  swap
  · exact .inr hg
  refine .inl ⟨⟨adm', k', ha', hk'⟩, h1, h2, ?_⟩
  intro g hg he
  rcases List.mem_append.mp hg with hg | hg
  swap
  · exact hi.calm g (by simp [hg]) he
  -- a reply to the contract
  have rep : ∀ {sender : Addr} {id : Option Nat} {cr : Option Addr} {m : CosmosMsg}, f = .msg sender ⟨m, id⟩ →
      g ∈ replyFrame sender id cr → Calm c i k0 g := by
    rintro sender id cr m rfl hgr
    obtain ⟨j, rfl, rfl⟩ := mem_replyFrame hgr
    refine ⟨id, fun s hs => ?_⟩
    obtain ⟨_, _, hc, hid⟩ := (hf he).2 s hs
    cases hc
    cases hid
  cases h with
  | bank sender _ _ id => exact rep rfl hg
  | migrate sender _ _ id | admin sender _ _ id => exact rep rfl hg
  | token sender _ _ _ id me _ _ _ _ r _ _ _ hc hx =>
    rcases List.mem_append.mp hg with hg | hg
    · obtain ⟨m, hm, rfl⟩ := mem_frames hg
      simp only [Frame.actor] at he
      subst he
      rw [ha] at hc; cases hc
      obtain ⟨t, b, y, hk, rfl⟩ := Token.eff_out (Token.execute_inv hx) m hm
      refine ⟨?_, fun s hs => ⟨_, _, rfl, rfl⟩⟩
      rintro (⟨_, h, _⟩ | ⟨_, _, _, h⟩)
      · cases h
      · exact h
    · exact rep rfl hg
  | pair sender _ _ _ id me _ _ _ _ r _ _ _ hc hx =>
    rcases List.mem_append.mp hg with hg | hg
    · obtain ⟨m, hm, rfl⟩ := mem_frames hg
      simp only [Frame.actor] at he
      subst he
      rw [ha] at hc; cases hc
      cases k0 with
      | pair s =>
        cases hk
        obtain ⟨cm, rfl, _⟩ := (Pair.execute_out hx).2 m hm
        exact ⟨fun ht => hns (Pair.execute_spends hl hx _ hm ht), fun s hs => ⟨_, _, rfl, rfl⟩⟩
      | _ => simp [Alike] at hk
    · exact rep rfl hg
  | factory sender _ _ _ id me _ _ _ _ r _ _ _ hc hx =>
    rcases List.mem_append.mp hg with hg | hg
    · obtain ⟨m, hm, rfl⟩ := mem_frames hg
      simp only [Frame.actor] at he
      subst he
      rw [ha] at hc; cases hc
      refine ⟨?_, fun s hs => by subst hs; simp [Alike] at hk⟩
      rcases Factory.eff_out (Factory.execute_inv hx) m hm with ⟨_, _, _, _, rfl⟩ | ⟨_, _, rfl⟩
      · rintro ⟨_, h, _⟩; cases h
      · exact fun h => h
    · exact rep rfl hg
  | router sender _ _ _ id me _ _ _ _ r _ _ _ hc hx =>
    rcases List.mem_append.mp hg with hg | hg
    · obtain ⟨m, hm, rfl⟩ := mem_frames hg
      simp only [Frame.actor] at he
      subst he
      rw [ha] at hc; cases hc
      cases k0 <;> simp [Alike] at hk
    · exact rep rfl hg
  | other sender _ _ _ id me _ _ ms _ _ hc =>
    rcases List.mem_append.mp hg with hg | hg
    · simp only [List.mem_map] at hg
      obtain ⟨m', _, rfl⟩ := hg
      simp only [Frame.actor] at he
      subst he
      rw [ha] at hc; cases hc
      exact absurd rfl hne
    · exact rep rfl hg
  | inst sender admin codeId m' funds id kk adm2 w1 s1 fs1 hk' hadm hnew hmv hx =>
    rcases List.mem_append.mp hg with hg | hg
    · obtain ⟨_, rfl⟩ := callInstantiate_frames hx _ hg
      simp only [Frame.actor] at he
      rw [he, ha] at hnew; cases hnew
    · exact rep rfl hg
  | replyPair me _ _ _ _ _ r hc hx =>
    unfold Pair.reply at hx
    simp only [bind_eq_ok, okOr_eq_ok, canonicalize_eq_ok, pure_eq_ok, Prod.mk.injEq] at hx
    obtain ⟨lt, h1, b, h2, rfl, rfl⟩ := hx
    cases hg
  | replyFactory me _ _ _ _ _ r hc hx =>
    obtain ⟨_, _, _, _, _, _, _, _, _, _, rfl, _⟩ := Factory.reply_inv hx
    cases hg
  | replyOther me _ _ _ ms hc =>
    simp only [List.mem_map] at hg
    obtain ⟨m', _, rfl⟩ := hg
    simp only [Frame.actor] at he
    subst he
    rw [ha] at hc; cases hc
    exact absurd rfl hne

/-- Over any history: still there, or the code was replaced. -/
theorem Keeps.later {c : Chain} (hl : c.Lawful) {w w' : World} (hw : Reachable c w) (h : Later c w w') {a : Addr}
    {k0 : CState} {i : AssetInfo} {x : Nat} (hns : ¬ CanSpend c k0 i) (hi : Keeps c a k0 i x w []) :
    Keeps c a k0 i x w' [] ∨ Gone w' a i := by
  induction h with
  | refl => exact .inl hi
  | step v v' hlat hs ih =>
    have hv := hw.later hlat
    cases hs with
    | tx adv gas _ _ signer m hu hx =>
      obtain ⟨n, hr⟩ := runTx_inv hx
      have hm0 := hv.mute
      have start : Keeps c a k0 i x v [.msg signer (plain m)] ∨ Gone v a i := by
        rcases ih with ih | ih
        · refine .inl ⟨ih.here, ih.honest, ih.le, ?_⟩
          intro f hf he
          simp only [List.mem_singleton] at hf
          subst hf
          obtain ⟨adm, k, ha, _⟩ := ih.here
          obtain ⟨j, _, hj⟩ := hm0.sane.at_addr _ _ ha
          exact absurd (hj.symm.trans he.symm) (hu.1 j)
        · exact .inr ih
      have := run_induct (c := c) (adv := adv)
        (P := fun v fs => Mute c v fs ∧ (Keeps c a k0 i x v fs ∨ Gone v a i)) (by
          rintro n u f u' fs rest ⟨h1, h2⟩ hs
          refine ⟨h1.step hs, ?_⟩
          rcases h2 with h2 | h2
          · exact h2.step hl hns h1 hs
          · exact .inr (h2.step hs)) ⟨hm0.start hu m (hm0.sane.start hu m), start⟩ hr
      exact this.2
    | block _ b =>
      rcases ih with ih | ih
      · exact .inl ⟨ih.here, ih.honest, by have := ih.le; cases i <;> exact this, by simp⟩
      · exact .inr ih
    | env _ bank' hb =>
      rcases ih with ih | ih
      · refine .inl ⟨ih.here, ih.honest, ?_, by simp⟩
        have hle := ih.le
        cases i with
        | native d =>
          obtain ⟨adm, k, ha, _⟩ := ih.here
          obtain ⟨j, _, rfl⟩ := hv.contractsAt _ _ ha
          exact le_trans hle (hb d j)
        | token t => exact hle
      · exact .inr ih

end Halo
