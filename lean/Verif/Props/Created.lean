import Verif.Lemmas.CreateRunL
import Verif.Props.Create
/-! # `CreatePair` creates what was asked for (C53) -/

namespace Halo

/-- C53: a `CreatePair` transaction that succeeds, while both code ids of the factory are the project's own code, leaves
behind exactly one new registry entry, one new pair and one new LP token, with the assets and requirements of the request
and the decimals found for the assets; the coins attached to the request go to the factory; nothing else changes. -/
theorem C53_creates_what_was_asked {c : Chain} (hl : c.Lawful) {w w' : World} (hw : Reachable c w) {adv : Adv}
    {gas : Nat} {signer : Addr} {target : Str} {as : AssetInfo × AssetInfo} {req : Requirements} {funds : List Coin}
    {a : Addr} {adm : Option Addr} {s : Factory.State} (ht : c.api.resolve target = .ok a)
    (ha : w.contracts a = some ⟨adm, .factory s⟩) (hpc : c.codes s.config.pairCodeId ≠ some .other)
    (htc : c.codes s.config.tokenCodeId ≠ some .other)
    (hx : runTx c adv gas w signer (.exec target (.createPair as req) funds) = .ok w') :
    (∃ w1, moveCoins w signer a funds = .ok w1 ∧ w'.bank = w1.bank) ∧
      ∃ p lt e, Created c w w' a adm s as req p lt e := by
  obtain ⟨n, hr⟩ := runTx_inv hx
  obtain ⟨w1, h1, h2, e, h3⟩ := create_run hl hw ht ha hpc htc hr
  exact ⟨⟨w1, h1, h2⟩, _, _, e, h3⟩

/-- C53, seen from outside: right after the transaction the factory answers the pair query for the two assets, in either
order, with the requested requirements, and the named contract answers the same about itself. -/
theorem C53_query_answers {c : Chain} (hl : c.Lawful) {w w' : World} (hw : Reachable c w) {adv : Adv}
    {gas : Nat} {signer : Addr} {target : Str} {as : AssetInfo × AssetInfo} {req : Requirements} {funds : List Coin}
    {a : Addr} {adm : Option Addr} {s : Factory.State} (ht : c.api.resolve target = .ok a)
    (ha : w.contracts a = some ⟨adm, .factory s⟩) (hpc : c.codes s.config.pairCodeId ≠ some .other)
    (htc : c.codes s.config.tokenCodeId ≠ some .other)
    (hx : runTx c adv gas w signer (.exec target (.createPair as req) funds) = .ok w') :
    ∃ s' info ps, w'.contracts a = some ⟨adm, .factory s'⟩ ∧ Factory.queryPair c.api s' as = .ok info ∧
      Factory.queryPair c.api s' (as.2, as.1) = .ok info ∧ info.requirements = req ∧
      info.assetInfos.1.toRaw c.api = as.1.toRaw c.api ∧ info.assetInfos.2.toRaw c.api = as.2.toRaw c.api ∧
      DecimalsIn c w s as.1 info.assetDecimals.1 ∧ DecimalsIn c w s as.2 info.assetDecimals.2 ∧
      w.contracts info.contractAddr = none ∧ w'.contracts info.contractAddr = some ⟨some a, .pair ps⟩ ∧
      Pair.queryPairInfo c.api ps = .ok info := by
  obtain ⟨n, hr⟩ := runTx_inv hx
  obtain ⟨w1, h1, h2, e, h3⟩ := create_run hl hw ht ha hpc htc hr
  obtain ⟨info, hi⟩ := h3.normal
  obtain ⟨s', f1, f2, f3, f4⟩ := h3.fac
  have hself : AMap.get s'.pairs (Factory.pairKey e.assetInfos) = some e := by rw [f4, if_pos rfl]
  have hi' := hi
  simp only [PairInfoRaw.toNormal, bind_eq_ok, humanize_eq_ok, pure_eq_ok] at hi
  obtain ⟨lt', g1, ca, g2, i0, g3, i1, g4, rfl⟩ := hi
  have hca : ca = c.addrOf w.next := by
    have := hl.human_canon h3.addr
    rw [g2] at this
    exact Option.some.inj this
  have raw : ∀ {i : AssetInfo} {r : AssetInfoRaw}, r.toNormal c.api = .ok i → i.toRaw c.api = .ok r := by
    intro i r h
    cases r with
    | native d => cases h; rfl
    | token b =>
      simp only [AssetInfoRaw.toNormal, bind_eq_ok, humanize_eq_ok, pure_eq_ok] at h
      obtain ⟨x, hx, rfl⟩ := h
      simp only [AssetInfo.toRaw, bind_eq_ok, canonicalize_eq_ok, pure_eq_ok]
      exact ⟨b, hl.canon_human _ _ hx, rfl⟩
  subst hca
  refine ⟨s', _, e, f1, ?_, ?_, h3.req, (raw g3).trans h3.raw0.symm, (raw g4).trans h3.raw1.symm, h3.dec0, h3.dec1,
    h3.fresh.1, h3.pair, hi'⟩
  · simp only [Factory.queryPair, bind_eq_ok, okOr_eq_ok]
    exact ⟨_, h3.raw0, _, h3.raw1, e, hself, hi'⟩
  · simp only [Factory.queryPair, bind_eq_ok, okOr_eq_ok]
    exact ⟨_, h3.raw1, _, h3.raw0, e, by rw [sort2_comm_bytes]; exact hself, hi'⟩

/-- The demo factory meets the hypotheses, with code ids of a halo pair and a halo token: `user` creates a third pair. -/
example : Reachable Demo.chain Demo.deployed ∧ Demo.chain.api.resolve Demo.fac = .ok Demo.fac ∧
    Demo.deployed.contracts Demo.fac = some ⟨none, .factory (Demo.facState Demo.deployed Demo.fac)⟩ ∧
    Demo.chain.codes (Demo.facState Demo.deployed Demo.fac).config.pairCodeId = some .pair ∧
    Demo.chain.codes (Demo.facState Demo.deployed Demo.fac).config.tokenCodeId = some .token ∧
    (∃ w', runTx Demo.chain Demo.idle 20 Demo.deployed Demo.user
      (.exec Demo.fac (.createPair (.token Demo.tA, .token Demo.tC) ⟨[Demo.user], 10, 10⟩) []) = .ok w') :=
  ⟨Demo.deployed_reachable, rfl, Demo.facState_eq (by decide +kernel), by decide +kernel, by decide +kernel,
    _, Demo.worldOf_eq (by decide +kernel)⟩

end Halo
