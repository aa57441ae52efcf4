import Verif.Lemmas.LockedL
/-! # LP tokens in their own pair (helper lemmas for C115) -/

namespace Halo
open _root_.Halo.Spec

/-- The LP tokens that a pending frame is going to burn: a burn by the pair itself, or a withdrawal of which the pair is about to be
told. -/
def owed (c : Chain) (a lt : Addr) : Frame → Nat
  | .msg s ⟨.exec t (.burn x) _, _⟩ => if s = a ∧ c.api.resolve t = .ok lt then x else 0
  | .msg s ⟨.exec t (.receive _ x .withdrawLiquidity) _, _⟩ => if s = lt ∧ c.api.resolve t = .ok a then x else 0
  | _ => 0

/-- Of all pending frames together. -/
def owedAll (c : Chain) (a lt : Addr) (fs : List Frame) : Nat := (fs.map (owed c a lt)).sum

/-- A message that gives away tokens of `lt`, other than by burning them. -/
def Parts (c : Chain) (lt : Addr) : CosmosMsg → Prop
  | .exec t (.transfer _ _) _ => c.api.resolve t = .ok lt
  | .exec t (.send _ _ _) _ => c.api.resolve t = .ok lt
  | _ => False

theorem owed_none {c : Chain} {a lt : Addr} {f : Frame} (ha : f.actor ≠ a) (hl : f.actor ≠ lt) : owed c a lt f = 0 := by
  unfold owed
  split
  · exact if_neg fun h => ha h.1
  · exact if_neg fun h => hl h.1
  · rfl

theorem owedAll_none {c : Chain} {a lt : Addr} {fs : List Frame} (h : ∀ f ∈ fs, owed c a lt f = 0) : owedAll c a lt fs = 0 := by
  unfold owedAll
  rw [List.sum_eq_zero]
  intro x hx
  obtain ⟨f, hf, rfl⟩ := List.mem_map.mp hx
  exact h f hf

theorem owedAll_append {c : Chain} {a lt : Addr} (fs gs : List Frame) :
    owedAll c a lt (fs ++ gs) = owedAll c a lt fs + owedAll c a lt gs := by simp [owedAll]

theorem owedAll_cons {c : Chain} {a lt : Addr} (f : Frame) (gs : List Frame) :
    owedAll c a lt (f :: gs) = owed c a lt f + owedAll c a lt gs := by simp [owedAll]

theorem owedAll_reply {c : Chain} {a lt s : Addr} {id : Option Nat} {cr : Option Addr} : owedAll c a lt (replyFrame s id cr) = 0 :=
  owedAll_none fun f hf => by
    obtain ⟨_, _, rfl⟩ := mem_replyFrame hf
    rfl

/-- The pair at `a` is still itself, its LP token is still a token, and at least `x` LP tokens, besides those that are about to be
burned, are there. -/
structure Lost (c : Chain) (a : Addr) (s : Pair.State) (lt : Addr) (x : Nat) (v : World) (fs : List Frame) : Prop where
  here : ∃ adm, v.contracts a = some ⟨adm, .pair s⟩
  tok : ∃ st, v.contracts lt = some ⟨none, .token st⟩
  le : x + owedAll c a lt fs ≤ held v (.token lt) a
  calm : ∀ f ∈ fs, f.actor = a → ∃ m, f = .msg a (plain m) ∧ ¬ Parts c lt m

/-- A token message: what it adds to the pair's balance covers the withdrawal it announces. -/
theorem eff_owed {c : Chain} {blk : Block} {st st' : TokenState} {sender a lt : Addr} {t : Str} {funds : List Coin} {m : ExecMsg}
    {r : Response} {id : Option Nat} (hne : a ≠ lt) (h : Token.Eff c.api blk st sender m st' r) (ht : c.api.resolve t = .ok lt)
    (hc : sender = a → ¬ Parts c lt (.exec t m funds)) (hs : ∀ sp, st.allowances.get (a, sp) = none) :
    st.balances.getD0 a + owedAll c a lt (frames lt r) ≤ st'.balances.getD0 a + owed c a lt (.msg sender ⟨.exec t m funds, id⟩) := by
  have quiet : owedAll c a lt (frames lt {}) = 0 := rfl
  have mv : ∀ {src dst : Addr} {x : Nat}, src ≠ a →
      st.balances.getD0 a + (if dst = a then x else 0) ≤ (Token.moveBal st.balances src dst x).getD0 a := by
    intro src dst x h
    rw [Token.moveBal_get, if_neg (Ne.symm h)]
    by_cases e : dst = a
    · rw [if_pos e, if_pos e.symm]
    · rw [if_neg e, if_neg (Ne.symm e)]; omega
  have hook : ∀ {dst b : Str} {x : Nat} {hk : HookMsg}, c.api.validate dst = .ok dst →
      owedAll c a lt (frames lt { messages := [plain (.exec dst (.receive b x hk) [])] }) ≤ if dst = a then x else 0 := by
    intro dst b x hk hv
    simp only [frames, List.map_cons, List.map_nil, owedAll, List.sum_cons, List.sum_nil, Nat.add_zero, plain]
    cases hk <;> simp only [owed, Nat.zero_le]
    have := PairSite.resolve_of_validate hv
    rw [this]
    simp only [true_and, Except.ok.injEq]
    exact le_refl _
  cases h with
  | transfer dst x =>
    have := mv (src := sender) (dst := dst) (x := x) fun e => hc e ht
    rw [quiet]
    exact le_trans (by simp only; omega) (Nat.le_add_right _ _)
  | send dst x hk _ hv =>
    have h1 := mv (src := sender) (dst := dst) (x := x) fun e => hc e ht
    have h2 := hook (b := sender) (x := x) (hk := hk) hv
    exact le_trans (by simp only; omega) (Nat.le_add_right _ _)
  | burn x _ hb =>
    rw [quiet]
    simp only [AMap.getD0_set, owed]
    by_cases e : sender = a
    · subst e
      rw [if_pos rfl, if_pos ⟨rfl, ht⟩]
      omega
    · rw [if_neg (Ne.symm e)]; omega
  | mint dst x md =>
    rw [quiet]
    simp only [AMap.getD0_set]
    split
    · rename_i e; subst e; omega
    · omega
  | increase | decrease | decreaseZero | renounce | newMinter => rw [quiet]; exact Nat.le_add_right _ _
  | transferFrom o dst x al _ _ ha =>
    have := mv (src := o) (dst := dst) (x := x) fun e => by subst e; rw [hs] at ha; cases ha
    rw [quiet]
    exact le_trans (by simp only; omega) (Nat.le_add_right _ _)
  | sendFrom o dst x hk al hv _ ha =>
    have h1 := mv (src := o) (dst := dst) (x := x) fun e => by subst e; rw [hs] at ha; cases ha
    have h2 := hook (b := sender) (x := x) (hk := hk) hv
    exact le_trans (by simp only; omega) (Nat.le_add_right _ _)
  | burnFrom o x al _ ha =>
    rw [quiet]
    simp only [AMap.getD0_set]
    rw [if_neg fun e => by subst e; rw [hs] at ha; cases ha]
    omega

theorem owed_pay {c : Chain} {a lt b : Addr} (x : Asset) (dst : Addr) : owed c a lt (.msg b (plain (x.intoMsg dst))) = 0 := by
  unfold Asset.intoMsg
  split <;> rfl

/-- A pair's own message: it burns what the LP token has just told it about, and gives away only its assets. -/
theorem pair_owed {c : Chain} (hl : c.Lawful) {q : Querier} {a lt : Addr} {s s' : Pair.State} {sender : Addr} {t : Str}
    {funds : List Coin} {m : ExecMsg} {r : Response} {id : Option Nat} (hlt : c.api.human s.liquidityToken = some lt)
    (h0 : s.assetInfos.1.toNormal c.api ≠ .ok (.token lt)) (h1 : s.assetInfos.2.toNormal c.api ≠ .ok (.token lt))
    (ht : c.api.resolve t = .ok a) (hact : ∀ b, c.api.canon sender = some b → ∀ o, c.api.human b = some o → sender = o)
    (h : Pair.execute c.api q a s sender funds m = .ok (s', r)) :
    owedAll c a lt (frames a r) ≤ owed c a lt (.msg sender ⟨.exec t m funds, id⟩) ∧
      ∀ sm ∈ r.messages, ∃ cm, sm = plain cm ∧ ¬ Parts c lt cm := by
  have pay : ∀ {j : AssetInfo} {y : Nat} {raw : AssetInfoRaw} {dst : Addr}, (raw = s.assetInfos.1 ∨ raw = s.assetInfos.2) →
      raw.toNormal c.api = .ok j → ¬ Parts c lt (({ info := j, amount := y } : Asset).intoMsg dst) := by
    intro j y raw dst hr hn hp
    have hj : j ≠ .token lt := by
      rintro rfl
      rcases hr with rfl | rfl
      exacts [h0 hn, h1 hn]
    unfold Asset.intoMsg at hp
    cases raw with
    | native d =>
      simp only [AssetInfoRaw.toNormal, Except.ok.injEq] at hn
      subst hn
      exact hp
    | token b =>
      simp only [AssetInfoRaw.toNormal, bind_eq_ok, humanize_eq_ok, pure_eq_ok] at hn
      obtain ⟨t, ht, rfl⟩ := hn
      have := resolve_human hl ht hp
      subst this
      exact hj rfl
  rcases Pair.execute_inv h with ⟨b, amount, bp, ms, dst, rfl, h⟩ | ⟨b, amount, rfl, h⟩ | ⟨assets, tol, receiver, rfl, h⟩
  · obtain ⟨rfl, _, o, a', od, ad, r', sp, cm, hs⟩ := Pair.receive_swap_inv h
    rw [hs.h_resp]
    dsimp only
    split
    · refine ⟨?_, ?_⟩
      · simp only [frames, List.map_cons, List.map_nil, owedAll, List.sum_cons, List.sum_nil, owed_pay, Nat.add_zero, Nat.zero_le]
      · intro sm hsm
        simp only [List.mem_singleton] at hsm
        subst hsm
        refine ⟨_, rfl, ?_⟩
        rcases hs.h_pools with ⟨h1, _⟩ | ⟨h1, _⟩
        · obtain ⟨_, h2, _⟩ := queryPools_eq_ok.mp h1
          exact pay (.inr rfl) h2
        · obtain ⟨h2, _⟩ := queryPools_eq_ok.mp h1
          exact pay (.inl rfl) h2
    · exact ⟨Nat.zero_le _, fun _ h => nomatch h⟩
  · obtain ⟨rfl, hcan, _, p0, p1, lt', ti, ratio, r0, r1, hs⟩ := Pair.receive_withdraw_inv (funds := funds) h
    have hsl : sender = lt := hact _ hcan _ hlt
    have hlt' : lt' = lt := by
      have := hs.h_lt
      rw [hlt] at this
      exact (Option.some.inj this).symm
    rw [hs.h_resp]
    obtain ⟨h2, h3, _⟩ := queryPools_eq_ok.mp hs.h_pools
    refine ⟨?_, ?_⟩
    · simp only [frames, List.map_cons, List.map_nil, owedAll, List.sum_cons, List.sum_nil, owed_pay, Nat.add_zero, Nat.zero_add]
      simp only [owed, plain, hsl, ht, and_self, if_true]
      split <;> omega
    · intro sm hsm
      simp only [List.mem_cons, List.not_mem_nil, or_false] at hsm
      rcases hsm with rfl | rfl | rfl
      · exact ⟨_, rfl, pay (.inl rfl) h2⟩
      · exact ⟨_, rfl, pay (.inr rfl) h3⟩
      · exact ⟨_, rfl, fun h => h⟩
  · obtain ⟨rfl, p0, p1, d0, d1, lt', ti, share, hs⟩ := Pair.provide_inv h
    rw [hs.h_resp]
    have coll : ∀ {j : AssetInfo} {d : Nat} {cm : CosmosMsg}, cm ∈ Pair.collectMsg a sender j d →
        owed c a lt (.msg a (plain cm)) = 0 ∧ ¬ Parts c lt cm := by
      intro j d cm hc
      unfold Pair.collectMsg at hc
      split at hc
      · simp only [List.mem_singleton] at hc
        subst hc
        exact ⟨rfl, fun h => h⟩
      · cases hc
    have all : ∀ cm, cm ∈ Pair.collectMsg a sender p0.info d0 ++ Pair.collectMsg a sender p1.info d1 ++
        [CosmosMsg.exec lt' (.mint (receiver.getD sender) share) []] → owed c a lt (.msg a (plain cm)) = 0 ∧ ¬ Parts c lt cm := by
      intro cm hcm
      simp only [List.mem_append, List.mem_singleton] at hcm
      rcases hcm with (hcm | hcm) | rfl
      · exact coll hcm
      · exact coll hcm
      · exact ⟨rfl, fun h => h⟩
    refine ⟨?_, ?_⟩
    · refine le_of_eq_of_le (owedAll_none ?_) (Nat.zero_le _)
      intro f hf
      obtain ⟨sm, hsm, rfl⟩ := mem_frames hf
      obtain ⟨cm, hcm, rfl⟩ := List.mem_map.mp hsm
      exact (all cm hcm).1
    · intro sm hsm
      obtain ⟨cm, hcm, rfl⟩ := List.mem_map.mp hsm
      exact ⟨cm, rfl, (all cm hcm).2⟩

/-- One step: the LP tokens are still there, or the pair's code was replaced. -/
theorem Lost.step {c : Chain} (hl : c.Lawful) {adv : Adv} {n : Nat} {w w' : World} {f : Frame} {fs rest : List Frame} {a lt : Addr}
    {s : Pair.State} {x : Nat} (hlt : c.api.human s.liquidityToken = some lt) (h0 : s.assetInfos.1.toNormal c.api ≠ .ok (.token lt))
    (h1 : s.assetInfos.2.toNormal c.api ≠ .ok (.token lt)) (hm : Mute c w (f :: rest)) (hi : Lost c a s lt x w (f :: rest))
    (h : StepI c adv n w f w' fs) : Lost c a s lt x w' (fs ++ rest) ∨ ∃ adm, w'.contracts a = some ⟨adm, .other⟩ := by
  obtain ⟨adm, ha⟩ := hi.here
  obtain ⟨st, ht⟩ := hi.tok
  have hf := hi.calm f (by simp)
  have hne : a ≠ lt := by rintro rfl; rw [ha] at ht; cases ht
  rcases Alike.step (k0 := .pair s) h ha rfl (by
    rintro s hs id cr rfl
    obtain ⟨_, hc, _⟩ := hf rfl
    cases hc) with ⟨adm', k', ha', rfl⟩ | hg
  swap
  · exact .inr hg
  left
  have hle := hi.le
  rw [owedAll_cons, held_token ht] at hle
  -- it is enough to compare the balance and the new frames
  have fin : ∀ {st' : TokenState}, w'.contracts lt = some ⟨none, .token st'⟩ →
      st.balances.getD0 a + owedAll c a lt fs ≤ st'.balances.getD0 a + owed c a lt f →
      (∀ g ∈ fs, g.actor = a → ∃ m, g = .msg a (plain m) ∧ ¬ Parts c lt m) → Lost c a s lt x w' (fs ++ rest) := by
    intro st' ht' hb hg
    refine ⟨⟨adm', ha'⟩, ⟨st', ht'⟩, ?_, ?_⟩
    · rw [owedAll_append, held_token ht']; omega
    · intro g hgm he
      rcases List.mem_append.mp hgm with hgm | hgm
      exacts [hg g hgm he, hi.calm g (by simp [hgm]) he]
  have same : w'.contracts lt = w.contracts lt → owedAll c a lt fs = 0 →
      (∀ g ∈ fs, g.actor = a → ∃ m, g = .msg a (plain m) ∧ ¬ Parts c lt m) → Lost c a s lt x w' (fs ++ rest) :=
    fun e e0 hg => fin (e.trans ht) (by omega) hg
  have rep : ∀ {sender : Addr} {id : Option Nat} {cr : Option Addr} {m : CosmosMsg}, f = .msg sender ⟨m, id⟩ →
      ∀ g ∈ replyFrame sender id cr, g.actor = a → ∃ m, g = .msg a (plain m) ∧ ¬ Parts c lt m := by
    rintro sender id cr m rfl g hg he
    obtain ⟨j, rfl, rfl⟩ := mem_replyFrame hg
    obtain ⟨_, hc, _⟩ := hf he
    cases hc
  -- messages of somebody else
  have away : ∀ {me sender : Addr} {id : Option Nat} {cr : Option Addr} {m : CosmosMsg} {gs : List Frame}, f = .msg sender ⟨m, id⟩ →
      me ≠ a → me ≠ lt → (∀ g ∈ gs, g.actor = me) → owedAll c a lt (gs ++ replyFrame sender id cr) = 0 ∧
      ∀ g ∈ gs ++ replyFrame sender id cr, g.actor = a → ∃ m, g = .msg a (plain m) ∧ ¬ Parts c lt m := by
    intro me sender id cr m gs hfm n1 n2 hgs
    refine ⟨?_, ?_⟩
    · rw [owedAll_append, owedAll_reply, owedAll_none fun g hg => owed_none (by rw [hgs g hg]; exact n1) (by rw [hgs g hg]; exact n2)]
    · intro g hg he
      rcases List.mem_append.mp hg with hg | hg
      · exact absurd ((hgs g hg).symm.trans he) n1
      · exact rep hfm g hg he
  have act : ∀ {me : Addr} {r : Response}, ∀ g ∈ frames me r, g.actor = me := by
    intro me r g hg
    obtain ⟨_, _, rfl⟩ := mem_frames hg
    rfl
  cases h with
  | bank sender _ _ id _ _ _ _ hmv => exact same (by rw [(moveCoins_inv hmv).contracts]) owedAll_reply (rep rfl)
  | migrate sender _ _ id kk me s1 _ _ hc =>
    refine same (setContract_ne _ _ ?_) owedAll_reply (rep rfl)
    rintro rfl; rw [hc] at ht; cases ht
  | admin sender _ _ id _ me s1 _ hc _ =>
    refine same (setContract_ne _ _ ?_) owedAll_reply (rep rfl)
    rintro rfl; rw [hc] at ht; cases ht
  | other sender _ _ _ id me _ _ ms _ hmv hc =>
    obtain ⟨e0, hg⟩ := away (me := me) (gs := ms.map (Frame.msg me)) (cr := none) rfl (by rintro rfl; rw [hc] at ha; cases ha)
      (by rintro rfl; rw [hc] at ht; cases ht) (by
        intro g hg
        obtain ⟨_, _, rfl⟩ := List.mem_map.mp hg
        rfl)
    exact same (by rw [(moveCoins_inv hmv).contracts]) e0 hg
  | replyOther me _ _ _ ms hc =>
    have n1 : me ≠ a := by rintro rfl; rw [hc] at ha; cases ha
    have n2 : me ≠ lt := by rintro rfl; rw [hc] at ht; cases ht
    have hgs : ∀ g ∈ ms.map (Frame.msg me), g.actor = me := by
      intro g hg
      obtain ⟨_, _, rfl⟩ := List.mem_map.mp hg
      rfl
    exact same rfl (owedAll_none fun g hg => owed_none (by rw [hgs g hg]; exact n1) (by rw [hgs g hg]; exact n2))
      fun g hg he => absurd ((hgs g hg).symm.trans he) n1
  | factory sender _ _ _ id me _ _ _ _ r _ hmv _ hc hx | router sender _ _ _ id me _ _ _ _ r _ hmv _ hc hx =>
    have n2 : me ≠ lt := by rintro rfl; rw [hc] at ht; cases ht
    obtain ⟨e0, hg⟩ := away (me := me) (gs := frames me r) (cr := none) rfl (by rintro rfl; rw [hc] at ha; cases ha) n2 act
    exact same ((setContract_ne _ _ n2.symm).trans (congrFun (moveCoins_inv hmv).contracts lt)) e0 hg
  | inst sender admin codeId m' funds id kk adm2 w1 s1 fs1 hk' hadm hnew hmv hx =>
    have n1 : c.addrOf w.next ≠ a := by rintro e; rw [e, ha] at hnew; cases hnew
    have n2 : c.addrOf w.next ≠ lt := by rintro e; rw [e, ht] at hnew; cases hnew
    obtain ⟨e0, hg⟩ := away (me := c.addrOf w.next) (gs := fs1) (cr := some (c.addrOf w.next)) rfl n1 n2 (by
      intro g hg
      obtain ⟨_, rfl⟩ := callInstantiate_frames hx _ hg
      rfl)
    exact same ((setContract_ne _ _ n2.symm).trans (congrFun (moveCoins_inv hmv).contracts lt)) e0 hg
  | replyPair me _ _ _ _ _ r hc hx =>
    unfold Pair.reply at hx
    simp only [bind_eq_ok, okOr_eq_ok, canonicalize_eq_ok, pure_eq_ok, Prod.mk.injEq] at hx
    obtain ⟨_, _, b, _, rfl, rfl⟩ := hx
    refine same (setContract_ne _ _ ?_) rfl (fun g hg => nomatch hg)
    rintro rfl; rw [hc] at ht; cases ht
  | replyFactory me _ _ _ _ _ r hc hx =>
    obtain ⟨_, _, _, _, _, _, _, _, _, _, rfl, _⟩ := Factory.reply_inv hx
    refine same (setContract_ne _ _ ?_) rfl (fun g hg => nomatch hg)
    rintro rfl; rw [hc] at ht; cases ht
  | token sender target m funds id me w1 admin s1 s' r hme hmv _ hc hx =>
    have n1 : me ≠ a := by rintro rfl; rw [hc] at ha; cases ha
    by_cases e : me = lt
    · subst e
      rw [hc] at ht; cases ht
      refine fin (st' := s') (setContract_self _ _ _) ?_ ?_
      · rw [owedAll_append, owedAll_reply]
        refine eff_owed hne (Token.execute_inv hx) hme (fun e => ?_) (hm.silent me _ _ a hc (.inl ⟨adm, _, ha, by simp⟩))
        obtain ⟨m2, e1, e2⟩ := hf e
        cases e1
        exact e2
      · intro g hg he
        rcases List.mem_append.mp hg with hg | hg
        · exact absurd ((act g hg).symm.trans he) n1
        · exact rep rfl g hg he
    · obtain ⟨e0, hg⟩ := away (me := me) (gs := frames me r) (cr := none) rfl n1 e act
      exact same ((setContract_ne _ _ (Ne.symm e)).trans (congrFun (moveCoins_inv hmv).contracts lt)) e0 hg
  | pair sender target m funds id me w1 admin s1 s' r hme hmv _ hc hx =>
    have n2 : me ≠ lt := by rintro rfl; rw [hc] at ht; cases ht
    have hcl := (setContract_ne (w := w1) ⟨admin, .pair s'⟩ n2.symm).trans (congrFun (moveCoins_inv hmv).contracts lt)
    by_cases e : me = a
    · subst e
      rw [hc] at ha; cases ha
      obtain ⟨p1, p2⟩ := pair_owed hl (id := id) hlt h0 h1 hme
        (fun b hb o ho => hm.sane.actor_eq hl (f := .msg sender ⟨.exec target m funds, id⟩) (by simp) hb ho) hx
      refine fin (hcl.trans ht) ?_ ?_
      · rw [owedAll_append, owedAll_reply]; change _ ≤ owed c me lt (.msg sender _) at p1; omega
      · intro g hg he
        rcases List.mem_append.mp hg with hg | hg
        · obtain ⟨sm, hsm, rfl⟩ := mem_frames hg
          obtain ⟨cm, rfl, hp⟩ := p2 sm hsm
          exact ⟨cm, rfl, hp⟩
        · exact rep rfl g hg he
    · obtain ⟨e0, hg⟩ := away (me := me) (gs := frames me r) (cr := none) rfl e n2 act
      exact same hcl e0 hg

end Halo
