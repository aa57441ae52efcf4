import Verif.Lemmas.TraceL
import Verif.Lemmas.SwapForm
import Verif.Spec.Pool
/-! # Reserves of a pair during an execution (helper lemmas for C21) -/

namespace Halo
open _root_.Halo.Spec

/-- What account `b` holds of an asset: native coins, or the balance in a halo token (0 if the contract is none). -/
def held (v : World) (i : AssetInfo) (b : Addr) : Nat :=
  match i with
  | .native d => v.bal d b
  | .token t =>
    match v.contracts t with
    | some ⟨_, .token st⟩ => st.balances.getD0 b
    | _ => 0

/-- The supply of the halo token at `t` (0 if the contract is none). -/
def supplyAt (v : World) (t : Addr) : Nat :=
  match v.contracts t with
  | some ⟨_, .token st⟩ => st.totalSupply
  | _ => 0

/-- An asset without surprises: a native coin or a halo token. -/
def Honest (v : World) (i : AssetInfo) : Prop :=
  ∀ t, i = .token t → ∃ adm st, v.contracts t = some ⟨adm, .token st⟩

/-- The fixed data of a pair: address, LP token, storage and assets. -/
structure PairSite where
  a : Addr
  lt : Addr
  s : Pair.State
  i0 : AssetInfo
  i1 : AssetInfo

namespace PairSite
variable (k : PairSite)

/-- The data fit together: the two assets and the LP token are those in storage, and all three are different. -/
structure Ctx (c : Chain) : Prop where
  law : c.Lawful
  info0 : k.s.assetInfos.1.toNormal c.api = .ok k.i0
  info1 : k.s.assetInfos.2.toNormal c.api = .ok k.i1
  lp : c.api.human k.s.liquidityToken = some k.lt
  ne : k.i0 ≠ k.i1
  lp0 : k.i0 ≠ .token k.lt
  lp1 : k.i1 ≠ .token k.lt

/-- The pair is deployed with honest assets and an LP token that only it mints. -/
structure Good (v : World) : Prop where
  live : ∃ adm, v.contracts k.a = some ⟨adm, .pair k.s⟩
  asset0 : Honest v k.i0
  asset1 : Honest v k.i1
  lp : ∃ st, v.contracts k.lt = some ⟨none, .token st⟩ ∧ st.mint = some ⟨k.a, none⟩

/-- The pair's current admin. -/
noncomputable def Good.adm {k : PairSite} {v : World} (h : k.Good v) : Option Addr := h.live.choose

theorem Good.pair {k : PairSite} {v : World} (h : k.Good v) : v.contracts k.a = some ⟨h.adm, .pair k.s⟩ :=
  h.live.choose_spec

/-- The pair's code or the code of one of its assets has been replaced. -/
def Broken (v : World) : Prop :=
  (∃ adm, v.contracts k.a = some ⟨adm, .other⟩) ∨
    ∃ t adm, (k.i0 = .token t ∨ k.i1 = .token t) ∧ v.contracts t = some ⟨adm, .other⟩

/-- Reserves and LP supply. -/
def pool (v : World) : Pool := ⟨held v k.i0 k.a, held v k.i1 k.a, supplyAt v k.lt⟩

/-- The message goes to the pair. -/
def toPair (c : Chain) (target : Str) : Bool :=
  match c.api.resolve target with
  | .ok b => decide (b = k.a)
  | .error _ => false

/-- The amount of asset `i` named in a deposit. -/
def named (i : AssetInfo) (assets : Asset × Asset) : Nat :=
  if assets.1.info = i then assets.1.amount else assets.2.amount

/-- The request made to the pair by an executed frame, if any, and the pool it was made to. The tokens offered in a swap
are already in the reserve when the pair is called, so they are taken off. -/
def callOf (c : Chain) : World × Frame → Option (Pool × Call)
  | (w, .msg t ⟨.exec target (.receive _ x (.swap _ _ _)) _, _⟩) =>
    if k.toPair c target then
      if k.i0 = .token t then some (⟨(k.pool w).r0 - x, (k.pool w).r1, (k.pool w).supply⟩, .swap0 x)
      else if k.i1 = .token t then some (⟨(k.pool w).r0, (k.pool w).r1 - x, (k.pool w).supply⟩, .swap1 x)
      else none
    else none
  | (w, .msg _ ⟨.exec target (.receive _ x .withdrawLiquidity) _, _⟩) =>
    if k.toPair c target then some (k.pool w, .withdraw x) else none
  | (w, .msg _ ⟨.exec target (.provideLiquidity assets _ _) _, _⟩) =>
    if k.toPair c target then some (k.pool w, .deposit (named k.i0 assets) (named k.i1 assets)) else none
  | _ => none

/-- The requests made to the pair, in order. -/
def calls (c : Chain) (tr : List (World × Frame)) : List (Pool × Call) := tr.filterMap (k.callOf c)

/-- Nobody is waiting to act as the pair, as its LP token or as one of its assets. -/
def Quiet (fs : List Frame) : Prop :=
  ∀ f ∈ fs, f.actor ≠ k.a ∧ f.actor ≠ k.lt ∧ k.i0 ≠ .token f.actor ∧ k.i1 ≠ .token f.actor

end PairSite

theorem PairSite.callOf_ne {k : PairSite} {c : Chain} {target : Str} {b : Addr} (hr : c.api.resolve target = .ok b)
    (hb : b ≠ k.a) (w : World) (s : Addr) (m : ExecMsg) (funds : List Coin) (id : Option Nat) :
    k.callOf c (w, .msg s ⟨.exec target m funds, id⟩) = none := by
  have : k.toPair c target = false := by simp [PairSite.toPair, hr, hb]
  unfold PairSite.callOf
  split <;> rename_i h <;> simp only [Prod.mk.injEq, Frame.msg.injEq, SubMsg.mk.injEq, CosmosMsg.exec.injEq] at h
  · obtain ⟨_, _, ⟨rfl, _⟩, _⟩ := h; simp [this]
  · obtain ⟨_, _, ⟨rfl, _⟩, _⟩ := h; simp [this]
  · obtain ⟨_, _, ⟨rfl, _⟩, _⟩ := h; simp [this]
  · rfl

theorem PairSite.calls_append (k : PairSite) (c : Chain) (t u : List (World × Frame)) :
    k.calls c (t ++ u) = k.calls c t ++ k.calls c u := List.filterMap_append

theorem PairSite.calls_none {k : PairSite} {c : Chain} {e : World × Frame} (h : k.callOf c e = none)
    (t : List (World × Frame)) : k.calls c (e :: t) = k.calls c t := List.filterMap_cons_none h

theorem PairSite.calls_some {k : PairSite} {c : Chain} {e : World × Frame} {x : Pool × Call} (h : k.callOf c e = some x)
    (t : List (World × Frame)) : k.calls c (e :: t) = x :: k.calls c t := List.filterMap_cons_some h

theorem held_token {v : World} {t : Addr} {adm : Option Addr} {st : TokenState}
    (h : v.contracts t = some ⟨adm, .token st⟩) (b : Addr) : held v (.token t) b = st.balances.getD0 b := by
  simp [held, h]

theorem supplyAt_token {v : World} {t : Addr} {adm : Option Addr} {st : TokenState}
    (h : v.contracts t = some ⟨adm, .token st⟩) : supplyAt v t = st.totalSupply := by simp [supplyAt, h]

theorem held_congr {v v' : World} {i : AssetInfo} {b : Addr} (hb : ∀ d, i = .native d → v'.bal d b = v.bal d b)
    (ht : ∀ t, i = .token t → v'.contracts t = v.contracts t) : held v' i b = held v i b := by
  cases i with
  | native d => exact hb d rfl
  | token t => simp only [held, ht t rfl]

theorem supplyAt_congr {v v' : World} {t : Addr} (h : v'.contracts t = v.contracts t) :
    supplyAt v' t = supplyAt v t := by simp only [supplyAt, h]

theorem Chain.Lawful.resolve_human {c : Chain} (hl : c.Lawful) {b : Bytes} {t : Addr} (h : c.api.human b = some t) :
    c.api.resolve t = .ok t := resolve_eq_ok.mpr ⟨b, hl.canon_human _ _ h, h⟩

namespace PairSite.Ctx
variable {c : Chain} {k : PairSite}

theorem resolve0 (h : k.Ctx c) {t : Addr} (ht : k.i0 = .token t) : c.api.resolve t = .ok t := by
  have := h.info0
  rw [ht] at this
  cases hr : k.s.assetInfos.1 with
  | native d => rw [hr] at this; cases this
  | token b =>
    rw [hr] at this
    simp only [AssetInfoRaw.toNormal, bind_eq_ok, humanize_eq_ok, pure_eq_ok, AssetInfo.token.injEq] at this
    obtain ⟨_, h1, rfl⟩ := this
    exact h.law.resolve_human h1

theorem resolve1 (h : k.Ctx c) {t : Addr} (ht : k.i1 = .token t) : c.api.resolve t = .ok t := by
  have := h.info1
  rw [ht] at this
  cases hr : k.s.assetInfos.2 with
  | native d => rw [hr] at this; cases this
  | token b =>
    rw [hr] at this
    simp only [AssetInfoRaw.toNormal, bind_eq_ok, humanize_eq_ok, pure_eq_ok, AssetInfo.token.injEq] at this
    obtain ⟨_, h1, rfl⟩ := this
    exact h.law.resolve_human h1

theorem resolveLp (h : k.Ctx c) : c.api.resolve k.lt = .ok k.lt := h.law.resolve_human h.lp

theorem resolve_of (h : k.Ctx c) {i : AssetInfo} (hi : i = k.i0 ∨ i = k.i1) {t : Addr} (ht : i = .token t) :
    c.api.resolve t = .ok t := by
  rcases hi with rfl | rfl
  · exact h.resolve0 ht
  · exact h.resolve1 ht

end PairSite.Ctx

/-- Reserve queries return what the account holds. -/
theorem queryPool_held {c : Chain} {q : Querier} {v : World} {i : AssetInfo} {b : Addr} {x : Nat} (hi : Honest v i)
    (h : i.queryPool (querier c q v) c.api b = .ok x) : x = held v i b ∧ x < B128 := by
  cases i with
  | native d =>
    simp only [AssetInfo.queryPool, querier, baseQuerier, chk128, bind_eq_ok, require_eq_ok, pure_eq_ok,
      Except.ok.injEq] at h
    obtain ⟨_, rfl, _, h1, rfl⟩ := h
    exact ⟨rfl, h1⟩
  | token t =>
    obtain ⟨adm, st, hst⟩ := hi t rfl
    simp only [AssetInfo.queryPool, querier, baseQuerier, lookState, bind_eq_ok, okOr_eq_ok, pure_eq_ok] at h
    obtain ⟨t', hv, _, ⟨t2, hr, _, h1, rfl⟩, h⟩ := h
    obtain ⟨rfl, b', hc, hh⟩ := validate_eq_ok.mp hv
    obtain ⟨b2, hc2, hh2⟩ := resolve_eq_ok.mp hr
    rw [hc] at hc2
    cases hc2
    rw [hh] at hh2
    cases hh2
    rw [hst] at h1
    cases h1
    simp only [chk128, Token.queryBalance, bind_eq_ok, require_eq_ok, pure_eq_ok] at h
    obtain ⟨_, ⟨b3, h3, rfl⟩, _, h4, rfl⟩ := h
    obtain ⟨rfl, _⟩ := Token.validate_self h3
    exact ⟨by rw [held_token hst], h4⟩

/-- Supply queries return the supply. -/
theorem tokenInfo_supply {c : Chain} {q : Querier} {v : World} {t : Addr} {ti : TokenInfoResp}
    (hr : c.api.resolve t = .ok t) {adm : Option Addr} {st : TokenState} (hst : v.contracts t = some ⟨adm, .token st⟩)
    (h : (querier c q v).tokenInfo t = .ok ti) : ti.totalSupply = supplyAt v t := by
  simp only [querier, baseQuerier, lookState, bind_eq_ok, okOr_eq_ok, pure_eq_ok, hr, Except.ok.injEq] at h
  obtain ⟨_, ⟨_, rfl, _, h1, rfl⟩, h⟩ := h
  rw [hst] at h1
  cases h1
  simp only [chkTI, bind_eq_ok, require_eq_ok, pure_eq_ok, Except.ok.injEq] at h
  obtain ⟨_, rfl, _, _, rfl⟩ := h
  rw [supplyAt_token hst]
  rfl

/-- A call that does not come from `a`, and without allowances by `a`, does not lower the balance of `a`. -/
theorem Token.Eff.bal_le {api : Api} {blk : Block} {s s' : TokenState} {sender a : Addr} {m : ExecMsg} {r : Response}
    (h : Token.Eff api blk s sender m s' r) (hne : sender ≠ a) (hal : ∀ sp, s.allowances.get (a, sp) = none) :
    s.balances.getD0 a ≤ s'.balances.getD0 a := by
  have mv : ∀ src dst x, src ≠ a → s.balances.getD0 a ≤ (moveBal s.balances src dst x).getD0 a := by
    intro src dst x hs
    rw [moveBal_get]
    simp only [Ne.symm hs, ↓reduceIte]
    split <;> omega
  cases h with
  | transfer => exact mv _ _ _ hne
  | send => exact mv _ _ _ hne
  | burn => simp only [AMap.getD0_set, Ne.symm hne, ↓reduceIte]; exact le_refl _
  | mint dst x =>
    simp only [AMap.getD0_set]
    split
    · rename_i h; subst h; omega
    · exact le_refl _
  | transferFrom o dst x al _ _ ha =>
    exact mv _ _ _ (by rintro rfl; rw [hal] at ha; cases ha)
  | sendFrom o dst x _ al _ _ ha =>
    exact mv _ _ _ (by rintro rfl; rw [hal] at ha; cases ha)
  | burnFrom o x al _ ha =>
    have : a ≠ o := by rintro rfl; rw [hal] at ha; cases ha
    simp only [AMap.getD0_set, this, ↓reduceIte]
    exact le_refl _
  | _ => exact le_refl _

/-- A call that does not come from the minter keeps the minter and does not raise the supply. -/
theorem Token.Eff.supply_le {api : Api} {blk : Block} {s s' : TokenState} {sender : Addr} {m : ExecMsg} {r : Response}
    (h : Token.Eff api blk s sender m s' r) {md : MinterData} (hm : s.mint = some md) (hne : sender ≠ md.minter) :
    s'.mint = some md ∧ s'.totalSupply ≤ s.totalSupply := by
  cases h with
  | mint _ _ md' _ _ hm' hs => rw [hm] at hm'; cases hm'; exact absurd hs.symm hne
  | renounce md' hm' hs => rw [hm] at hm'; cases hm'; exact absurd hs.symm hne
  | newMinter _ md' hm' hs => rw [hm] at hm'; cases hm'; exact absurd hs.symm hne
  | burn => exact ⟨hm, Nat.sub_le _ _⟩
  | burnFrom => exact ⟨hm, Nat.sub_le _ _⟩
  | _ => exact ⟨hm, le_refl _⟩

namespace Spec

theorem Drift.refl (p : Pool) : Drift p p := ⟨le_refl _, le_refl _, le_refl _⟩

theorem Drift.trans {p q r : Pool} (h1 : Drift p q) (h2 : Drift q r) : Drift p r :=
  ⟨h1.r0.trans h2.r0, h1.r1.trans h2.r1, h2.supply.trans h1.supply⟩

theorem Path.drift {p q r : Pool} {cs : List (Pool × Call)} (h : Drift p q) (h2 : Path q cs r) : Path p cs r := by
  cases h2 with
  | done _ _ h3 => exact .done _ _ (h.trans h3)
  | call _ b q' _ l rest h1 h2 h3 => exact .call _ b q' _ l rest (h.trans h1) h2 h3

theorem Path.append {p q r : Pool} {cs ds : List (Pool × Call)} (h1 : Path p cs q) (h2 : Path q ds r) :
    Path p (cs ++ ds) r := by
  induction h1 with
  | done _ _ h => exact Path.drift h h2
  | call _ b q' _ l rest h1 h3 _ ih => exact .call _ b q' _ l _ h1 h3 (ih h2)

end Spec

namespace PairSite
variable {c : Chain} {k : PairSite}

/-- A step that does not act as the pair can only donate to it or burn LP tokens. -/
theorem Good.step {adv : Adv} {n : Nat} {v v' : World} {f : Frame} {fs rest : List Frame} (hg : k.Good v)
    (hs : Sane c v (f :: rest)) (hf : f.actor ≠ k.a) (h : StepI c adv n v f v' fs) :
    k.Broken v' ∨ (k.Good v' ∧ Drift (k.pool v) (k.pool v')) := by
  have asset : ∀ i, i = k.i0 ∨ i = k.i1 → Honest v i → k.Broken v' ∨ (Honest v' i ∧ held v i k.a ≤ held v' i k.a) := by
    intro i hi hh
    cases i with
    | native d => exact .inr ⟨fun t ht => (by cases ht), bal_step h hf d⟩
    | token t =>
      obtain ⟨adm, st, hst⟩ := hh t rfl
      rcases tok_step h hst with ⟨_, h1, _⟩ | h1 | ⟨sender, target, m, funds, id, st', r, hfe, _, he, h1, _, _⟩
      · exact .inr ⟨fun t' ht' => (by cases ht'; exact ⟨_, _, h1⟩), by rw [held_token h1, held_token hst]⟩
      · exact .inl (.inr ⟨t, adm, hi.imp Eq.symm Eq.symm, h1⟩)
      · refine .inr ⟨fun t' ht' => (by cases ht'; exact ⟨_, _, h1⟩), ?_⟩
        rw [held_token h1, held_token hst]
        refine he.bal_le ?_ (hs.silent t adm st k.a hst (.inl ⟨_, _, hg.pair⟩))
        rintro rfl
        exact hf (by rw [hfe]; rfl)
  have hp := pair_fwd h hg.pair (fun e => absurd e hf)
  rcases hp with ⟨_, hp, _⟩ | ⟨hp, _⟩
  · rcases asset _ (.inl rfl) hg.asset0 with hb | ⟨a1, a2⟩
    · exact .inl hb
    · rcases asset _ (.inr rfl) hg.asset1 with hb | ⟨b1, b2⟩
      · exact .inl hb
      · right
        obtain ⟨st, hl, hm⟩ := hg.lp
        have lp : ∃ st', v'.contracts k.lt = some ⟨none, .token st'⟩ ∧ st'.mint = some ⟨k.a, none⟩ ∧
            st'.totalSupply ≤ st.totalSupply := by
          rcases tok_step h hl with ⟨_, h1, rfl | h2⟩ | h1 | ⟨sender, target, m, funds, id, st', r, hfe, _, he, h1, _, _⟩
          · exact ⟨st, h1, hm, le_refl _⟩
          · exact (Readmin.none h2).elim
          · exfalso
            cases h with
            | migrate sender target codeId id kk me s1 hk hres hc =>
              by_cases h2 : k.lt = me
              · subst h2; rw [hl] at hc; cases hc
              · rw [show (v.setState me (some sender) (migrateState kk s1)).contracts k.lt = v.contracts k.lt from
                  setContract_ne _ _ h2, hl] at h1
                cases h1
            | admin sender target new id adm2 me s1 hres hc _ =>
              by_cases h2 : k.lt = me
              · subst h2; rw [hl] at hc; cases hc
              · rw [show (v.setState me adm2 s1).contracts k.lt = v.contracts k.lt from setContract_ne _ _ h2, hl] at h1
                cases h1
            | bank _ _ _ _ _ _ _ _ hmv => rw [(moveCoins_inv hmv).contracts, hl] at h1; cases h1
            | other _ _ _ _ _ _ _ _ _ _ hmv => rw [(moveCoins_inv hmv).contracts, hl] at h1; cases h1
            | replyOther => rw [hl] at h1; cases h1
            | token _ _ _ _ _ me w1 admin s1 s' r _ hmv _ hc _ | pair _ _ _ _ _ me w1 admin s1 s' r _ hmv _ hc _
            | factory _ _ _ _ _ me w1 admin s1 s' r _ hmv _ hc _
            | router _ _ _ _ _ me w1 admin s1 s' r _ hmv _ hc _ =>
              by_cases h2 : k.lt = me
              · subst h2; simp [World.setState] at h1
              · simp only [World.setState] at h1
                rw [setContract_ne _ _ h2, (moveCoins_inv hmv).contracts, hl] at h1; cases h1
            | inst sender admin codeId m funds id kk adm2 w1 s1 fs1 hk hadm hnew hmv hx =>
              have h2 : k.lt ≠ c.addrOf v.next := by intro e; rw [← e, hl] at hnew; cases hnew
              rw [setContract_ne _ _ h2, (moveCoins_inv hmv).contracts] at h1
              simp only at h1
              rw [hl] at h1; cases h1
            | replyPair me _ _ admin s1 s' r hc hx | replyFactory me _ _ admin s1 s' r hc hx =>
              by_cases h2 : k.lt = me
              · subst h2; simp [World.setState] at h1
              · simp only [World.setState] at h1
                rw [setContract_ne _ _ h2, hl] at h1; cases h1
          · obtain ⟨h3, h4⟩ := he.supply_le hm (by rintro rfl; exact hf (by rw [hfe]; rfl))
            exact ⟨st', h1, h3, h4⟩
        obtain ⟨st', l1, l2, l3⟩ := lp
        refine ⟨⟨⟨_, hp⟩, a1, b1, st', l1, l2⟩, ⟨a2, b2, ?_⟩⟩
        simp only [pool, supplyAt_token l1, supplyAt_token hl]
        exact l3
  · exact .inl (.inl ⟨_, hp⟩)

/-- A broken pair stays broken. -/
theorem Broken.step {adv : Adv} {n : Nat} {v v' : World} {f : Frame} {fs : List Frame} (hb : k.Broken v)
    (h : StepI c adv n v f v' fs) : k.Broken v' := by
  rcases hb with ⟨_, hb⟩ | ⟨t, adm, ht, hb⟩
  · exact .inl ((other_step h hb).imp fun _ h => h.1)
  · obtain ⟨adm', h1, _⟩ := other_step h hb
    exact .inr ⟨t, adm', ht, h1⟩

theorem Broken.run {adv : Adv} {n n' : Nat} {v v' : World} {fs : List Frame} (hb : k.Broken v)
    (h : Halo.run c adv n v fs = .ok (n', v')) : k.Broken v' :=
  run_induct (P := fun v _ => k.Broken v) (fun _ _ _ _ _ _ hp hs => hp.step hs) hb h

end PairSite

/-- The invariant survives running a prefix of the stack. -/
theorem Sane.run {c : Chain} {adv : Adv} {n n' : Nat} {v v' : World} {fs rest : List Frame}
    (hs : Sane c v (fs ++ rest)) (h : run c adv n v fs = .ok (n', v')) : Sane c v' rest := by
  have := run_induct (c := c) (adv := adv) (P := fun v gs => Sane c v (gs ++ rest))
    (fun _ _ _ _ _ _ hp hst => by rw [List.append_assoc]; exact Sane.step hp hst) hs h
  exact this

end Halo
