import Verif.Lemmas.CreateRunL
import Verif.Lemmas.DeskL
import Verif.Lemmas.LiveL
/-! # `CreatePair` can be carried out (helper lemmas for C65) -/

namespace Halo

/-- The asset is one the factory with state `s` finds decimals for without asking third-party code. -/
def KnownIn (c : Chain) (w : World) (s : Factory.State) : AssetInfo → Prop
  | .native d => AMap.get s.allow d ≠ none
  | .token t => ∃ x adm ts, c.api.resolve t = .ok x ∧ w.contracts x = some ⟨adm, .token ts⟩

theorem fresh_addr {c : Chain} (hl : c.Lawful) {w : World} (hw : ContractsAt c w) {n : Nat} (hn : w.next ≤ n) :
    w.contracts (c.addrOf n) = none := by
  cases h : w.contracts (c.addrOf n) with
  | none => rfl
  | some k =>
    obtain ⟨j, hj, e⟩ := hw _ _ h
    have := hl.addr_inj _ _ e
    omega

theorem known_decimals {c : Chain} (q : Querier) {w : World} {a : Addr} {adm : Option Addr} {s : Factory.State}
    (hva : c.api.resolve a = .ok a) (ha : w.contracts a = some ⟨adm, .factory s⟩) (hok : OwnerOk c s) (htok : TokensOk w)
    {i : AssetInfo} (h : KnownIn c w s i) : ∃ n, i.queryDecimals (querier c q w) a = .ok n ∧ n < 256 := by
  cases i with
  | native d =>
    simp only [KnownIn, ne_eq] at h
    obtain ⟨n, hn⟩ := Option.ne_none_iff_exists'.mp h
    refine ⟨n, ?_, hok.decimals _ _ hn⟩
    simp only [AssetInfo.queryDecimals, querier, baseQuerier, lookState, hva, bind_eq_ok, Except.ok.injEq, okOr_eq_ok,
      pure_eq_ok]
    refine ⟨_, ⟨a, rfl, _, ha, rfl⟩, ?_⟩
    simp only [chk8, Factory.queryNativeTokenDecimals, hn, okOr, bind_eq_ok, pure_eq_ok, require_eq_ok]
    exact ⟨n, rfl, (), hok.decimals _ _ hn, rfl⟩
  | token t =>
    obtain ⟨x, ad, ts, hx, hk⟩ := h
    have hi := htok _ _ _ hk
    have hd : ts.decimals < 256 := Nat.lt_of_le_of_lt hi.decimals (by decide)
    refine ⟨ts.decimals, ?_, hd⟩
    simp only [AssetInfo.queryDecimals, querier, baseQuerier, lookState, bind_eq_ok, okOr_eq_ok, pure_eq_ok]
    refine ⟨Token.queryTokenInfo ts, ⟨_, ⟨x, hx, _, hk, rfl⟩, ?_⟩, rfl⟩
    simp only [chkTI, bind_eq_ok, pure_eq_ok, require_eq_ok]
    exact ⟨_, rfl, (), ⟨hi.fits, hd⟩, rfl⟩

theorem known_raw {c : Chain} {w : World} {s : Factory.State} {i : AssetInfo} (h : KnownIn c w s i) :
    ∃ r j, i.toRaw c.api = .ok r ∧ r.toNormal c.api = .ok j := by
  cases i with
  | native d => exact ⟨_, _, rfl, rfl⟩
  | token t =>
    obtain ⟨x, _, _, hx, _⟩ := h
    obtain ⟨b, h1, h2⟩ := resolve_eq_ok.mp hx
    refine ⟨.token b, .token x, ?_, ?_⟩
    · simp only [AssetInfo.toRaw, bind_eq_ok, canonicalize_eq_ok, pure_eq_ok]
      exact ⟨b, h1, rfl⟩
    · simp only [AssetInfoRaw.toNormal, bind_eq_ok, humanize_eq_ok, pure_eq_ok]
      exact ⟨x, h2, rfl⟩

theorem create_live {c : Chain} (hl : c.Lawful) {w : World} (hw : Reachable c w) (adv : Adv) {u a : Addr}
    {as : AssetInfo × AssetInfo} {req : Requirements} {funds : List Coin} {adm : Option Addr} {s : Factory.State}
    (ha : w.contracts a = some ⟨adm, .factory s⟩) (hpc : c.codes s.config.pairCodeId = some .pair)
    (htc : c.codes s.config.tokenCodeId = some .token) (hr : req.inRange = true) {w2 : World}
    (hm : moveCoins w u a funds = .ok w2) (hne : as.1 ≠ as.2) (hk0 : KnownIn c w s as.1) (hk1 : KnownIn c w s as.2)
    (hnew : Factory.queryPair c.api s as = .error .notFound) :
    ∃ w', run c adv 5 w [.msg u (plain (.exec a (.createPair as req) funds))] = .ok (0, w') := by
  have hva : c.api.resolve a = .ok a := by
    obtain ⟨j, _, e⟩ := hw.contractsAt _ _ ha
    rw [e]
    exact hl.resolve_addr j
  have hown := owners hl hw a adm s ha
  have hmv := moveCoins_inv hm
  have hat : ContractsAt c w2 := by
    intro b k hb
    rw [hmv.contracts] at hb
    rw [hmv.next]
    exact hw.contractsAt b k hb
  have htok : TokensOk w2 := by
    intro b ad ts hb
    rw [hmv.contracts] at hb
    exact hw.tokensOk b ad ts hb
  have ha2 : w2.contracts a = some ⟨adm, .factory s⟩ := by rw [hmv.contracts]; exact ha
  have kk : ∀ i, KnownIn c w s i → KnownIn c w2 s i := by
    intro i hi
    cases i with
    | native => exact hi
    | token => simpa only [KnownIn, hmv.contracts] using hi
  obtain ⟨d0, hd0, hb0⟩ := known_decimals (adv.query 4) hva ha2 hown htok (kk _ hk0)
  obtain ⟨d1, hd1, hb1⟩ := known_decimals (adv.query 4) hva ha2 hown htok (kk _ hk1)
  obtain ⟨r0, j0, hr0, hj0⟩ := known_raw hk0
  obtain ⟨r1, j1, hr1, hj1⟩ := known_raw hk1
  have habs : AMap.get s.pairs (Factory.pairKey (r0, r1)) = none := by
    simp only [Factory.queryPair, hr0, hr1, ok_bind] at hnew
    cases hp : AMap.get s.pairs (Factory.pairKey (r0, r1)) with
    | none => rfl
    | some p =>
      exfalso
      rw [hp] at hnew
      simp only [okOr, ok_bind, PairInfoRaw.toNormal, Api.humanize] at hnew
      have nf : ∀ (r : AssetInfoRaw) e, r.toNormal c.api = .error e → e = .addr := by
        intro r e he
        cases r with
        | native => cases he
        | token b =>
          simp only [AssetInfoRaw.toNormal, Api.humanize] at he
          cases hb : c.api.human b with
          | none => rw [hb] at he; cases he; rfl
          | some x => rw [hb] at he; cases he
      cases h1 : c.api.human p.liquidityToken with
      | none => rw [h1] at hnew; cases hnew
      | some x1 =>
      cases h2 : c.api.human p.contractAddr with
      | none => rw [h1, h2] at hnew; cases hnew
      | some x2 =>
      cases h3 : p.assetInfos.1.toNormal c.api with
      | error e => cases nf _ _ h3; rw [h1, h2, h3] at hnew; cases hnew
      | ok x3 =>
      cases h4 : p.assetInfos.2.toNormal c.api with
      | error e => cases nf _ _ h4; rw [h1, h2, h3, h4] at hnew; cases hnew
      | ok x4 => rw [h1, h2, h3, h4] at hnew; cases hnew
  obtain ⟨ca, hca, hca'⟩ := hl.addr_valid w.next
  obtain ⟨lb, hlb, hlb'⟩ := hl.addr_valid (w.next + 1)
  have hapn : ∀ n, w.next ≤ n → a ≠ c.addrOf n := by
    rintro n hn rfl
    rw [fresh_addr hl hw.contractsAt hn] at ha
    cases ha
  have hpl : c.addrOf w.next ≠ c.addrOf (w.next + 1) := fun e => by have := hl.addr_inj _ _ e; omega
  -- the request
  let s1 : Factory.State := { s with tmp := some ⟨Factory.pairKey (r0, r1), (r0, r1), (d0, d1)⟩ }
  let im : SubMsg := ⟨.inst (some a) s.config.pairCodeId (.pair as s.config.tokenCodeId (d0, d1) req) [], some 1⟩
  have h1 : step c adv 4 w (.msg u (plain (.exec a (.createPair as req) funds))) =
      .ok (w2.setState a adm (.factory s1), [.msg a im]) := by
    simp only [step, plain, bind_eq_ok, require_eq_ok, pure_eq_ok, Prod.exists, callExecute]
    refine ⟨a, hva, (), by rw [ha]; rfl, w2, hm, w2.setState a adm (.factory s1), [.msg a im], ⟨(), hr, ?_⟩, by
      simp only [replyFrame, List.append_nil]⟩
    rw [ha2]
    simp only [bind_eq_ok, pure_eq_ok, Prod.exists]
    refine ⟨s1, { messages := [im], events := [.createPair as] }, ?_, rfl⟩
    simp only [Factory.execute, Factory.createPair, bind_eq_ok, pure_eq_ok, require_eq_ok]
    exact ⟨(), hne, d0, by rw [hd0]; rfl, d1, by rw [hd1]; rfl, r0, hr0, r1, hr1, (), habs, rfl⟩
  generalize hv1 : w2.setState a adm (.factory s1) = v1 at h1
  have c1 : v1.contracts a = some ⟨adm, .factory s1⟩ := by rw [← hv1]; exact setContract_self _ _ _
  have o1 : ∀ b, b ≠ a → v1.contracts b = w.contracts b := fun b hb => by
    rw [← hv1, ← hmv.contracts]; exact setContract_ne _ _ hb
  have n1 : v1.next = w.next := by rw [← hv1, ← hmv.next]; rfl
  -- the pair is instantiated
  let p0 : PairInfoRaw := ⟨(r0, r1), ca, [], (d0, d1), req⟩
  let tm : SubMsg := ⟨.inst none s.config.tokenCodeId (.token (Pair.lpInst (c.addrOf w.next))) [], some 1⟩
  have h2 : step c adv 3 v1 (.msg a im) =
      .ok (({ v1 with next := w.next + 1 } : World).setContract (c.addrOf w.next) ⟨some a, .pair p0⟩,
        [.msg (c.addrOf w.next) tm, .reply a 1 (some (c.addrOf w.next))]) := by
    have hci : callInstantiate c adv 3 (c.addrOf w.next) a .pair (.pair as s.config.tokenCodeId (d0, d1) req) =
        .ok (.pair p0, [.msg (c.addrOf w.next) tm]) := by
      have hrg : (InstMsg.pair as s.config.tokenCodeId (d0, d1) req).inRange = true := by
        simp only [InstMsg.inRange, hb0, hb1, hown.tokenCode, hr, decide_true, Bool.and_self]
      have hx : Pair.instantiate c.api (c.addrOf w.next) ⟨as, s.config.tokenCodeId, (d0, d1), req⟩ =
          .ok (p0, { messages := [tm] }) := by
        simp only [Pair.instantiate, bind_eq_ok, pure_eq_ok, canonicalize_eq_ok]
        exact ⟨ca, hca, r0, hr0, r1, hr1, rfl⟩
      simp only [callInstantiate, hrg, require, if_true, ok_bind, hx]
      rfl
    simp only [step, im, bind_eq_ok, require_eq_ok, pure_eq_ok, Prod.exists, okOr_eq_ok, n1]
    refine ⟨.pair, hpc, some a, by simp only [resolveAdmin, hva, ok_bind]; rfl, (), ?_, _, moveCoins_nil.mpr rfl, .pair p0,
      [.msg (c.addrOf w.next) tm], hci, rfl⟩
    rw [o1 _ (Ne.symm (hapn _ (Nat.le_refl _))), fresh_addr hl hw.contractsAt (Nat.le_refl _)]; rfl
  generalize hv2 : World.setContract _ _ _ = v2 at h2
  have p2 : v2.contracts (c.addrOf w.next) = some ⟨some a, .pair p0⟩ := by rw [← hv2]; exact setContract_self _ _ _
  have o2 : ∀ b, b ≠ c.addrOf w.next → v2.contracts b = v1.contracts b := fun b hb => by
    rw [← hv2]; exact setContract_ne _ _ hb
  have n2 : v2.next = w.next + 1 := by rw [← hv2]; rfl
  -- the LP token is instantiated
  have hts : ∃ ts, Token.instantiate c.api (Pair.lpInst (c.addrOf w.next)) = .ok ts := by
    have hv := validate_of_resolve (hl.resolve_addr w.next)
    refine ⟨⟨Pair.lpName, Pair.lpSymbol, 6, 0, some ⟨c.addrOf w.next, none⟩, [], []⟩, ?_⟩
    have h1 : Token.validate (Pair.lpInst (c.addrOf w.next)) = .ok () := rfl
    have h2 : Token.createAccounts c.api (Pair.lpInst (c.addrOf w.next)).initialBalances = .ok ([], 0) := rfl
    have h3 : Token.getCapInst (Pair.lpInst (c.addrOf w.next)) = none := rfl
    simp only [Token.instantiate, h1, h2, h3, ok_bind]
    simp only [Pair.lpInst, hv, ok_bind]
    rfl
  obtain ⟨ts, hts⟩ := hts
  have h3 : step c adv 2 v2 (.msg (c.addrOf w.next) tm) =
      .ok (({ v2 with next := w.next + 2 } : World).setContract (c.addrOf (w.next + 1)) ⟨none, .token ts⟩,
        [.reply (c.addrOf w.next) 1 (some (c.addrOf (w.next + 1)))]) := by
    have hci : callInstantiate c adv 2 (c.addrOf (w.next + 1)) (c.addrOf w.next) .token
        (.token (Pair.lpInst (c.addrOf w.next))) = .ok (.token ts, []) := by
      have hrg : (InstMsg.token (Pair.lpInst (c.addrOf w.next))).inRange = true := rfl
      simp only [callInstantiate, hrg, require, if_true, ok_bind, hts]
      rfl
    simp only [step, tm, bind_eq_ok, require_eq_ok, pure_eq_ok, Prod.exists, okOr_eq_ok, n2]
    refine ⟨.token, htc, none, rfl, (), ?_, _, moveCoins_nil.mpr rfl, .token ts, [], hci, rfl⟩
    rw [o2 _ (Ne.symm hpl), o1 _ (Ne.symm (hapn _ (by omega))), fresh_addr hl hw.contractsAt (by omega)]; rfl
  generalize hv3 : World.setContract _ _ _ = v3 at h3
  have o3 : ∀ b, b ≠ c.addrOf (w.next + 1) → v3.contracts b = v2.contracts b := fun b hb => by
    rw [← hv3]; exact setContract_ne _ _ hb
  -- the pair stores its LP token
  let p1 : PairInfoRaw := ⟨(r0, r1), ca, lb, (d0, d1), req⟩
  have h4 : step c adv 1 v3 (.reply (c.addrOf w.next) 1 (some (c.addrOf (w.next + 1)))) =
      .ok (v3.setState (c.addrOf w.next) (some a) (.pair p1), []) := by
    simp only [step, (o3 _ hpl).trans p2, bind_eq_ok, pure_eq_ok, Prod.exists]
    refine ⟨p1, { events := [.liquidityToken (c.addrOf (w.next + 1))] }, ?_, rfl⟩
    simp only [Pair.reply, bind_eq_ok, pure_eq_ok, okOr_eq_ok, canonicalize_eq_ok]
    exact ⟨_, rfl, lb, hlb, rfl⟩
  generalize hv4 : World.setState v3 _ _ _ = v4 at h4
  have p4 : v4.contracts (c.addrOf w.next) = some ⟨some a, .pair p1⟩ := by rw [← hv4]; exact setContract_self _ _ _
  have o4 : ∀ b, b ≠ c.addrOf w.next → v4.contracts b = v3.contracts b := fun b hb => by
    rw [← hv4]; exact setContract_ne _ _ hb
  have hap := hapn _ (Nat.le_refl _)
  have c4 : v4.contracts a = some ⟨adm, .factory s1⟩ :=
    ((o4 _ hap).trans (o3 _ (hapn _ (by omega)))).trans ((o2 _ hap).trans c1)
  -- the factory records the pair
  have h5 : ∃ v5, step c adv 0 v4 (.reply a 1 (some (c.addrOf w.next))) = .ok (v5, []) := by
    let e : PairInfoRaw := ⟨(r0, r1), ca, lb, (d0, d1), req⟩
    let s5 : Factory.State := { s1 with pairs := smapSet (Factory.pairKey (r0, r1)) e s.pairs }
    refine ⟨v4.setState a adm (.factory s5), ?_⟩
    simp only [step, c4, bind_eq_ok, pure_eq_ok, Prod.exists]
    refine ⟨s5, { events := [.pairCreated (c.addrOf w.next) (c.addrOf (w.next + 1))] }, ?_, rfl⟩
    let info : PairInfo := ⟨(j0, j1), c.addrOf w.next, c.addrOf (w.next + 1), (d0, d1), req⟩
    have hq : (querier c (adv.query 0) v4).pairInfoFromPair (c.addrOf w.next) = .ok info := by
      have hn : Pair.queryPairInfo c.api p1 = .ok info := by
        simp only [Pair.queryPairInfo, PairInfoRaw.toNormal, bind_eq_ok, humanize_eq_ok, pure_eq_ok]
        exact ⟨_, hlb', _, hca', _, hj0, _, hj1, rfl⟩
      simp only [querier, baseQuerier, lookState, hl.resolve_addr w.next, bind_eq_ok, Except.ok.injEq, okOr_eq_ok,
        pure_eq_ok]
      refine ⟨_, ⟨_, rfl, _, p4, rfl⟩, ?_⟩
      simp only [chkPI, hn, ok_bind, bind_eq_ok, require_eq_ok, pure_eq_ok]
      exact ⟨(), ⟨hb0, hb1, hr⟩, trivial⟩
    simp only [Factory.reply, bind_eq_ok, pure_eq_ok, okOr_eq_ok, canonicalize_eq_ok]
    exact ⟨_, rfl, _, rfl, info, hq, lb, hlb, ca, hca, rfl⟩
  obtain ⟨v5, h5⟩ := h5
  exact ⟨v5, run_cons_of h1 (run_cons_of h2 (run_cons_of h3 (run_cons_of h4 (run_cons_of h5 rfl))))⟩

end Halo
