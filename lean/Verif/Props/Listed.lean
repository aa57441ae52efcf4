import Verif.Props.Create
import Verif.Props.Pool
/-! # What a factory lists can be relied on (C105)

The pool claims are about pairs `k` with `PairSite.Sound`: three different things, honest assets, an LP token of the
pair's own. C105 says what somebody who only asks the factory has to check in order to use them. -/

namespace Halo

open _root_.Halo.Spec

/-- The factory, in state `s`, answers with `info`: to a query for a pair of assets, or on some page of the list. -/
inductive ListedBy (api : Api) (s : Factory.State) (info : PairInfo) : Prop where
  | pair (as : AssetInfo × AssetInfo) (h : Factory.queryPair api s as = .ok info)
  | page (start : Option (AssetInfo × AssetInfo)) (limit : Option Nat) (page : List PairInfo)
      (h : Factory.queryPairs api s start limit = .ok page) (hm : info ∈ page)

theorem ListedBy.entry {api : Api} {s : Factory.State} {info : PairInfo} (h : ListedBy api s info) :
    ∃ e ∈ s.pairs, e.2.toNormal api = .ok info := by
  cases h with
  | pair as h =>
    simp only [Factory.queryPair, bind_eq_ok, okOr_eq_ok] at h
    obtain ⟨r0, _, r1, _, e, he, hn⟩ := h
    exact ⟨_, get_mem he, hn⟩
  | page start limit page h hm =>
    unfold Factory.queryPairs at h
    simp only [bind_eq_ok] at h
    obtain ⟨sa, _, h⟩ := h
    unfold Factory.readPairs at h
    rw [toNormalAll_iff] at h
    have back : ∀ {l : List (Bytes × PairInfoRaw)} {ps : List PairInfo},
        List.Forall₂ (fun e p => e.2.toNormal api = .ok p) l ps → info ∈ ps → ∃ e ∈ l, e.2.toNormal api = .ok info := by
      intro l ps h
      induction h with
      | nil => intro hm; cases hm
      | cons h1 _ ih =>
        intro hm
        rcases List.mem_cons.mp hm with rfl | hm
        · exact ⟨_, List.mem_cons_self, h1⟩
        · obtain ⟨e, h2, h3⟩ := ih hm
          exact ⟨e, List.mem_cons_of_mem _ h2, h3⟩
    obtain ⟨e, he, hn⟩ := back h hm
    refine ⟨e, ?_, hn⟩
    have h2 := (List.take_sublist _ _).subset he
    unfold Factory.rangeFrom at h2
    split at h2
    · exact h2
    · exact (List.mem_filter.mp h2).1

/-- The pair that an answer of the factory names, with the content `ps`. -/
def PairInfo.site (i : PairInfo) (ps : Pair.State) : PairSite :=
  ⟨i.contractAddr, i.liquidityToken, ps, i.assetInfos.1, i.assetInfos.2⟩

private theorem token_normal {c : Chain} (hl : c.Lawful) {r : AssetInfoRaw} {b : Bytes} {lt : Addr}
    (hr : r.toNormal c.api = .ok (.token lt)) (hb : c.api.human b = some lt) : r = .token b := by
  cases r with
  | native d => simp [AssetInfoRaw.toNormal] at hr
  | token x =>
    simp only [AssetInfoRaw.toNormal, bind_eq_ok, humanize_eq_ok, pure_eq_ok, AssetInfo.token.injEq] at hr
    obtain ⟨y, h1, rfl⟩ := hr
    have e1 := hl.canon_human _ _ h1
    have e2 := hl.canon_human _ _ hb
    rw [e1] at e2
    rw [Option.some.inj e2]

/-- C105: in a history from genesis in which the factory never creates a pair with foreign code, whatever the factory
answers about a pair, alone or on a page, is true and enough to know the pair: as long as the factory has not migrated it
to foreign code, there is a pair contract at the named address, administered by the factory; it says the same about
itself; the named LP token is a halo token that nobody can migrate, that only this pair mints, and that is neither of the
pair's assets. -/
theorem C105_listed {c : Chain} (hl : c.Lawful) {g w : World} (hg : Genesis g) {a : Addr}
    (hw : Without c (ForeignCreate c a) g w) {adm : Option Addr} {s : Factory.State}
    (ha : w.contracts a = some ⟨adm, .factory s⟩) {info : PairInfo} (hq : ListedBy c.api s info) :
    (info.assetInfos.1 ≠ .token info.liquidityToken ∧ info.assetInfos.2 ≠ .token info.liquidityToken) ∧
    ((∃ ps, w.contracts info.contractAddr = some ⟨some a, .pair ps⟩ ∧ Pair.queryPairInfo c.api ps = .ok info ∧
        ∃ ts, w.contracts info.liquidityToken = some ⟨none, .token ts⟩ ∧
          ts.mint = some ⟨info.contractAddr, none⟩) ∨
      w.contracts info.contractAddr = some ⟨some a, .other⟩) := by
  obtain ⟨⟨key, e⟩, he, hn⟩ := hq.entry
  obtain ⟨⟨a0, a1⟩, p, hp, h⟩ := C41_entry_describes_pair_partial hl hg hw ha he
  have hr := (Reachable.genesis g hg).later hw.later
  have hn' := hn
  simp only [PairInfoRaw.toNormal, bind_eq_ok, humanize_eq_ok, pure_eq_ok] at hn
  obtain ⟨lt', g1, ca, g2, i0, g3, i1, g4, rfl⟩ := hn
  refine ⟨⟨?_, ?_⟩, ?_⟩
  · exact fun h => a0 (token_normal hl (h ▸ g3) g1)
  · exact fun h => a1 (token_normal hl (h ▸ g4) g1)
  have human : ∀ {x k b y}, w.contracts x = some k → c.api.canon x = some b → c.api.human b = some y → x = y := by
    intro x k b y hx hb hy
    obtain ⟨n, _, rfl⟩ := hr.contractsAt _ _ hx
    have := hl.human_canon hb
    rw [hy] at this
    exact (Option.some.inj this).symm
  rcases h with ⟨h2, lt, ts, h3, h4, h5⟩ | h2
  · have e1 := human h2 hp g2
    have e2 := human h4 h3 g1
    subst e1 e2
    exact .inl ⟨e, h2, hn', ts, h4, h5⟩
  · have e1 := human h2 hp g2
    subst e1
    exact .inr h2

/-- C105: what is left to check, and that it is exactly that. The claims about pools (`PairSite.Sound`) apply to a pair
that the factory lists if and only if the factory has not migrated it to foreign code, its two assets are different, and
each of them is a native coin or a halo token. -/
theorem C105_sound_iff {c : Chain} (hl : c.Lawful) {g w : World} (hg : Genesis g) {a : Addr}
    (hw : Without c (ForeignCreate c a) g w) {adm : Option Addr} {s : Factory.State}
    (ha : w.contracts a = some ⟨adm, .factory s⟩) {info : PairInfo} (hq : ListedBy c.api s info) :
    (∃ ps, (info.site ps).Sound c w) ↔
      w.contracts info.contractAddr ≠ some ⟨some a, .other⟩ ∧ info.assetInfos.1 ≠ info.assetInfos.2 ∧
      (∀ t, info.assetInfos.1 = .token t ∨ info.assetInfos.2 = .token t →
        ∃ adm st, w.contracts t = some ⟨adm, .token st⟩) := by
  obtain ⟨⟨a0, a1⟩, h⟩ := C105_listed hl hg hw ha hq
  constructor
  · rintro ⟨ps, h1⟩
    refine ⟨fun h2 => ?_, h1.ne, fun t ht => ?_⟩
    · obtain ⟨_, h3⟩ := h1.live
      rw [show (info.site ps).a = info.contractAddr from rfl, h2] at h3
      cases h3
    · rcases ht with ht | ht
      · exact h1.asset0 t ht
      · exact h1.asset1 t ht
  · rintro ⟨h1, h2, h3⟩
    obtain ⟨ps, h4, h5, ts, h6, _⟩ := h.resolve_right h1
    simp only [Pair.queryPairInfo, PairInfoRaw.toNormal, bind_eq_ok, humanize_eq_ok, pure_eq_ok] at h5
    obtain ⟨lt', g1, ca, g2, i0, g3, i1, g4, rfl⟩ := h5
    exact ⟨ps, ⟨_, h4⟩, g3, g4, g1, h2, a0, a1, fun t ht => h3 t (.inl ht), fun t ht => h3 t (.inr ht),
      fun t ht => by cases ht; exact ⟨_, _, h6⟩⟩

/-- C105, as used: somebody who asks the factory and makes those checks knows the pool's whole future. Whatever happens
afterwards, either the pair or one of its assets has been replaced by foreign code, or the reserves and the LP supply have
changed only by the swaps, deposits and withdrawals requested from the pair and by gifts (C21), and the checks still hold. -/
theorem C105_future {c : Chain} (hl : c.Lawful) {g w w' : World} (hg : Genesis g) {a : Addr}
    (hw : Without c (ForeignCreate c a) g w) {adm : Option Addr} {s : Factory.State}
    (ha : w.contracts a = some ⟨adm, .factory s⟩) {info : PairInfo} (hq : ListedBy c.api s info)
    (h1 : w.contracts info.contractAddr ≠ some ⟨some a, .other⟩) (h2 : info.assetInfos.1 ≠ info.assetInfos.2)
    (h3 : ∀ t, info.assetInfos.1 = .token t ∨ info.assetInfos.2 = .token t →
      ∃ adm st, w.contracts t = some ⟨adm, .token st⟩) {tr : List (World × Frame)} (hh : Hist c w tr w') :
    ((∃ adm, w'.contracts info.contractAddr = some ⟨adm, .other⟩) ∨
      ∃ t adm, (info.assetInfos.1 = .token t ∨ info.assetInfos.2 = .token t) ∧
        w'.contracts t = some ⟨adm, .other⟩) ∨
    ∃ ps, (info.site ps).Sound c w ∧ (info.site ps).Sound c w' ∧
      Path ((info.site ps).pool w) ((info.site ps).calls c tr) ((info.site ps).pool w') := by
  obtain ⟨ps, hk⟩ := (C105_sound_iff hl hg hw ha hq).mpr ⟨h1, h2, h3⟩
  exact (C21_constant_product hl ((Reachable.genesis g hg).later hw.later) hh hk).imp id fun h => ⟨ps, hk, h⟩

/-! ## Example, and why the factory is needed -/

namespace Demo

/-- What the demo factory answers about A and B. -/
def listedAB : PairInfo := ⟨(.token tA, .token tB), pAB, lpAB, (6, 6), ⟨[user], 10, 10⟩⟩

theorem listedAB_listed : ListedBy chain.api (facState deployed fac) listedAB :=
  .pair (.token tA, .token tB) (val_eq (by decide +kernel))

/-- It is also on the first page of the list. -/
example : ∃ page, Factory.queryPairs chain.api (facState deployed fac) none none = .ok page ∧ listedAB ∈ page :=
  ⟨_, val_eq (r := Factory.queryPairs chain.api (facState deployed fac) none none)
    (a := ((val (Factory.queryPairs chain.api (facState deployed fac) none none)).getD [])) (by decide +kernel),
    by decide +kernel⟩

/-- All the hypotheses of C105 hold in the demo history, and the pair passes the checks. -/
example : Genesis genesis ∧ Without chain (ForeignCreate chain fac) genesis deployed ∧
    deployed.contracts fac = some ⟨none, .factory (facState deployed fac)⟩ ∧
    ListedBy chain.api (facState deployed fac) listedAB ∧ ∃ ps, (listedAB.site ps).Sound chain deployed :=
  ⟨⟨rfl, fun _ => rfl⟩, deployed_clean, facState_eq (by decide +kernel), listedAB_listed, siteAB.s, sound_AB⟩

/-- A pair that `user` deploys on their own: its second asset is the address that its LP token is going to have. -/
def selfish : World := worldOf (runTx chain idle 20 deployed user
  (.inst none 2 (.pair (.token tA, .token (chain.addrOf (deployed.next + 1))) 1 (6, 6) ⟨[], 0, 0⟩) []))
theorem selfish_run : runTx chain idle 20 deployed user
    (.inst none 2 (.pair (.token tA, .token (chain.addrOf (deployed.next + 1))) 1 (6, 6) ⟨[], 0, 0⟩) []) = .ok selfish :=
  worldOf_eq (by decide +kernel)

end Demo

/-- C105 needs the factory's list: anybody can deploy a halo pair one of whose assets is its own LP token. -/
theorem C105_unlisted : ∃ (c : Chain) (w : World) (p : Addr) (adm : Option Addr) (ps : Pair.State) (info : PairInfo),
    c.Lawful ∧ Reachable c w ∧ w.contracts p = some ⟨adm, .pair ps⟩ ∧ Pair.queryPairInfo c.api ps = .ok info ∧
    info.assetInfos.2 = .token info.liquidityToken := by
  obtain ⟨adm, ps, h1, h2⟩ := Demo.exists_pair (w := Demo.selfish) (a := Demo.chain.addrOf Demo.deployed.next)
    (t := fun p => ((Demo.val (Pair.queryPairInfo Demo.chain.api p.2)).map
      fun i => decide (i.assetInfos.2 = .token i.liquidityToken)) == some true) (by decide +kernel)
  simp only [beq_iff_eq, Option.map_eq_some_iff, decide_eq_true_eq] at h2
  obtain ⟨info, h3, h4⟩ := h2
  exact ⟨_, _, _, _, _, info, Demo.lawful, .step _ _ Demo.deployed_reachable
    (.tx Demo.idle 20 _ _ _ _ Demo.isUser_user Demo.selfish_run), h1, Demo.val_eq h3, h4⟩

end Halo
