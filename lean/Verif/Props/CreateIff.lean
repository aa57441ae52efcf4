import Verif.Lemmas.CreateLiveL
import Verif.Props.Created
/-! # When `CreatePair` succeeds (C65) -/

namespace Halo

/-- No third-party contract sits at the asset's address. -/
def AssetInfo.NotForeign (c : Chain) (w : World) : AssetInfo → Prop
  | .native _ => True
  | .token t => ∀ x k, c.api.resolve t = .ok x → w.contracts x = some k → k.state ≠ .other

private theorem known_of {c : Chain} {q : Querier} {w : World} {a : Addr} {adm : Option Addr} {s : Factory.State}
    (hva : c.api.resolve a = .ok a) (ha : w.contracts a = some ⟨adm, .factory s⟩) {i : AssetInfo} {n : Nat}
    (hf : i.NotForeign c w) (h : i.queryDecimals (querier c q w) a = .ok n) : KnownIn c w s i := by
  cases i with
  | native d =>
    have := decimalsIn hva ha h
    simp only [DecimalsIn] at this
    simp [KnownIn, this]
  | token t =>
    simp only [AssetInfo.queryDecimals, querier, baseQuerier, lookState, bind_eq_ok, okOr_eq_ok, pure_eq_ok] at h
    obtain ⟨ti, ⟨st, ⟨x, hx, ⟨ad, st'⟩, hk, rfl⟩, h⟩, rfl⟩ := h
    have := hf x _ hx hk
    cases st' with
    | token ts => exact ⟨x, ad, ts, hx, hk⟩
    | other => exact absurd rfl this
    | pair | factory | router => cases h

/-- C65: while both code ids of the factory are the project's own code, a user's `CreatePair` succeeds exactly if the attached
coins can be paid, the two assets differ, each is a registered native coin or a token contract, and the factory knows no pair
of the two. (Assets that are third-party contracts are excluded: whether they answer is up to them.) -/
theorem C65_create_iff {c : Chain} (hl : c.Lawful) {w : World} (hw : Reachable c w) {u a : Addr}
    {adm : Option Addr} {s : Factory.State} (ha : w.contracts a = some ⟨adm, .factory s⟩)
    (hpc : c.codes s.config.pairCodeId = some .pair) (htc : c.codes s.config.tokenCodeId = some .token)
    {as : AssetInfo × AssetInfo} (hf0 : as.1.NotForeign c w) (hf1 : as.2.NotForeign c w) {req : Requirements}
    (hr : req.inRange = true) (funds : List Coin) (adv : Adv) :
    (∃ gas w', runTx c adv gas w u (.exec a (.createPair as req) funds) = .ok w') ↔
      (∃ w1, moveCoins w u a funds = .ok w1) ∧ as.1 ≠ as.2 ∧ KnownIn c w s as.1 ∧ KnownIn c w s as.2 ∧
        Factory.queryPair c.api s as = .error .notFound := by
  have hva : c.api.resolve a = .ok a := by
    obtain ⟨j, _, e⟩ := hw.contractsAt _ _ ha
    rw [e]
    exact hl.resolve_addr j
  constructor
  · rintro ⟨gas, w', h⟩
    obtain ⟨n, h⟩ := runTx_inv h
    obtain ⟨m1, w1, fs1, rfl, h1, h⟩ := run_cons_inv h
    have h1 := step_inv h1
    generalize hf : (plain (CosmosMsg.exec a (.createPair as req) funds)) = sm at h1
    cases h1 with
    | bank | inst | migrate | admin => cases hf
    | token _ _ _ _ _ me w2 admin s1 s1' r hme hm hr hc hx
    | pair _ _ _ _ _ me w2 admin s1 s1' r hme hm hr hc hx
    | router _ _ _ _ _ me w2 admin s1 s1' r hme hm hr hc hx
    | other _ _ _ _ _ me w2 admin ms hme hm hc => cases hf; rw [hva] at hme; cases hme; rw [ha] at hc; cases hc
    | factory _ _ _ _ _ me w2 admin s1 s1' r hme hm hr hc hx =>
      cases hf
      rw [hva] at hme; cases hme
      rw [ha] at hc; cases hc
      have hmv := moveCoins_inv hm
      have ha2 : w2.contracts a = some ⟨adm, .factory s⟩ := by rw [hmv.contracts]; exact ha
      cases Factory.execute_inv hx with
      | create _ _ d0 d1 r0 r1 hne hd0 hd1 hr0 hr1 hnew =>
      have nf : ∀ i : AssetInfo, i.NotForeign c w → i.NotForeign c w2 := by
        intro i hi
        cases i with
        | native => trivial
        | token => simpa only [AssetInfo.NotForeign, hmv.contracts] using hi
      have kn : ∀ i, KnownIn c w2 s i → KnownIn c w s i := by
        intro i hi
        cases i with
        | native => exact hi
        | token => simpa only [KnownIn, hmv.contracts] using hi
      refine ⟨⟨w2, hm⟩, hne, kn _ (known_of hva ha2 (nf _ hf0) hd0), kn _ (known_of hva ha2 (nf _ hf1) hd1), ?_⟩
      simp only [Factory.queryPair, hr0, hr1, ok_bind, hnew]
      rfl
  · rintro ⟨⟨w1, hm⟩, hne, hk0, hk1, hnew⟩
    obtain ⟨w', h⟩ := create_live hl hw adv ha hpc htc hr hm hne hk0 hk1 hnew
    exact ⟨5, w', by simp only [runTx, h, ok_bind]; rfl⟩

/-- C65, in words of the project's users: whoever asks can create any pair of two different tokens the factory does not list
yet; no permission, whitelist, fee or state of any other contract can stop it. -/
theorem C65_anyone_can_create {c : Chain} (hl : c.Lawful) {w : World} (hw : Reachable c w) (u : Addr) {a x y : Addr}
    {adm admx admy : Option Addr} {s : Factory.State} {sx sy : TokenState} (ha : w.contracts a = some ⟨adm, .factory s⟩)
    (hpc : c.codes s.config.pairCodeId = some .pair) (htc : c.codes s.config.tokenCodeId = some .token)
    (hx : w.contracts x = some ⟨admx, .token sx⟩) (hy : w.contracts y = some ⟨admy, .token sy⟩) (hxy : x ≠ y)
    (hnew : Factory.queryPair c.api s (.token x, .token y) = .error .notFound) {req : Requirements}
    (hr : req.inRange = true) (adv : Adv) :
    ∃ w', runTx c adv 5 w u (.exec a (.createPair (.token x, .token y) req) []) = .ok w' := by
  have res : ∀ {b k}, w.contracts b = some k → c.api.resolve b = .ok b := by
    intro b k hb
    obtain ⟨j, _, e⟩ := hw.contractsAt _ _ hb
    rw [e]
    exact hl.resolve_addr j
  obtain ⟨w', h⟩ := create_live hl hw adv ha hpc htc hr (u := u) (moveCoins_nil.mpr rfl) (as := (.token x, .token y))
    (fun e => hxy (AssetInfo.token.inj e)) ⟨x, admx, sx, res hx, hx⟩ ⟨y, admy, sy, res hy, hy⟩ hnew
  exact ⟨w', by simp only [runTx, h, ok_bind]; rfl⟩

/-! ## Concrete cases -/

namespace Demo

/-- In the demo world anyone can pair tA with tC, and nobody can pair tA with tB again. -/
example (adv : Adv) (u : Addr) :
    (∃ w', runTx chain adv 5 deployed u (.exec fac (.createPair (.token tA, .token tC) ⟨[], 0, 0⟩) []) = .ok w') ∧
    ¬ ∃ gas w', runTx chain adv gas deployed u (.exec fac (.createPair (.token tB, .token tA) ⟨[], 0, 0⟩) []) = .ok w' := by
  have hfac : deployed.contracts fac = some ⟨none, .factory (facState deployed fac)⟩ := facState_eq (by decide +kernel)
  have hp : chain.codes (facState deployed fac).config.pairCodeId = some .pair := by decide +kernel
  have ht : chain.codes (facState deployed fac).config.tokenCodeId = some .token := by decide +kernel
  obtain ⟨a1, s1, h1, _⟩ := exists_token (w := deployed) (a := tA) (t := fun _ => true) (by decide +kernel)
  obtain ⟨a2, s2, h2, _⟩ := exists_token (w := deployed) (a := tB) (t := fun _ => true) (by decide +kernel)
  obtain ⟨a3, s3, h3, _⟩ := exists_token (w := deployed) (a := tC) (t := fun _ => true) (by decide +kernel)
  refine ⟨C65_anyone_can_create lawful deployed_reachable u hfac hp ht h1 h3 (by decide) ?_ rfl adv, ?_⟩
  · have h : (match Factory.queryPair chain.api (facState deployed fac) (.token tA, .token tC) with
      | .error .notFound => true
      | _ => false) = true := by decide +kernel
    split at h
    · assumption
    · cases h
  · have nf : ∀ (t : Addr) (ad : Option Addr) (st : TokenState), deployed.contracts t = some ⟨ad, .token st⟩ →
        (AssetInfo.token t).NotForeign chain deployed := by
      intro t ad st h x k hx hk
      have : x = t := by
        have : chain.api.resolve t = .ok t := PairSite.resolve_of_validate (validate_any t)
        rw [hx] at this
        exact Except.ok.inj this
      rw [this, h] at hk
      cases hk
      intro e; cases e
    rw [C65_create_iff lawful deployed_reachable hfac hp ht (nf _ _ _ h2) (nf _ _ _ h1) rfl]
    rintro ⟨_, _, _, _, h⟩
    have h' : (match Factory.queryPair chain.api (facState deployed fac) (.token tB, .token tA) with
      | .ok _ => true
      | _ => false) = true := by decide +kernel
    rw [h] at h'
    cases h'

end Demo
end Halo
