import Verif.Props.DepositIff
import Verif.Props.Queries
/-! # Everybody is treated alike (C91)

What a pair does with a request depends on its reserves, its LP supply and what the request says, not on who makes it, when,
or what else is going on. -/

namespace Halo
open _root_.Halo.Spec

/-- Seen from the pair, the two states look alike: it holds the same amounts and as many LP tokens exist. -/
structure SamePool (k : PairSite) (w v : World) : Prop where
  reserve0 : held w k.i0 k.a = held v k.i0 k.a
  reserve1 : held w k.i1 k.a = held v k.i1 k.a
  supply : supplyAt w k.lt = supplyAt v k.lt

theorem SamePool.refl (k : PairSite) (w : World) : SamePool k w w := ⟨rfl, rfl, rfl⟩

theorem SamePool.symm {k : PairSite} {w v : World} (h : SamePool k w v) : SamePool k v w :=
  ⟨h.reserve0.symm, h.reserve1.symm, h.supply.symm⟩

theorem SamePool.dir {k : PairSite} {w v : World} (h : SamePool k w v) {i j : AssetInfo} (hd : k.Dir i j) :
    held w i k.a = held v i k.a ∧ held w j k.a = held v j k.a := by
  rcases hd with ⟨rfl, rfl⟩ | ⟨rfl, rfl⟩
  exacts [⟨h.reserve0, h.reserve1⟩, ⟨h.reserve1, h.reserve0⟩]

theorem SamePool.fits {k : PairSite} {w v : World} (h : SamePool k w v) (hf : Fits k w) : Fits k v := by
  constructor
  · intro d hd
    have h1 := hf.1 d hd
    have h2 := h.reserve0
    rw [hd] at h2
    simp only [held] at h2
    omega
  · intro d hd
    have h1 := hf.2 d hd
    have h2 := h.reserve1
    rw [hd] at h2
    simp only [held] at h2
    omega

theorem Names.uniq {k : PairSite} {as : Asset × Asset} {d0 d1 e0 e1 : Nat} (h : Names k as d0 d1) (hne : k.i0 ≠ k.i1)
    (h' : Names k as e0 e1) : e0 = d0 ∧ e1 = d1 := by
  rcases h with rfl | rfl <;> rcases h' with h | h <;> simp only [Prod.mk.injEq, Asset.mk.injEq] at h
  · exact ⟨h.1.2.symm, h.2.2.symm⟩
  · exact absurd h.1.1 hne
  · exact absurd h.2.1 hne
  · exact ⟨h.2.2.symm, h.1.2.symm⟩

section
variable {c : Chain} {w v : World} {k : PairSite}

/-- **C91.** Two users with at least `x` of the token each: a swap of `x` with given limits goes through for one exactly if it
does for the other. The transactions may be made in different states, blocks and surroundings, as long as the pair holds the
same amounts. -/
theorem C91_swap (hc : c.Lawful) (hw : Reachable c w) (hv : Reachable c v) (hk : k.Sound c w) (hkv : k.Sound c v)
    (hf : Fits k w) (ha : SamePool k w v) {S S' : Addr} (hS : c.IsUser S) (hS' : c.IsUser S') {t : Addr} {j : AssetInfo}
    (hd : k.Dir (.token t) j) {x : Nat} (hx : x ≤ held w (.token t) S) (hx' : x ≤ held v (.token t) S')
    (bp ms : Option Nat) {dst dst' : Option Str} (hdst : ∀ s, dst = some s → c.api.validate s = .ok s)
    (hdst' : ∀ s, dst' = some s → c.api.validate s = .ok s) (adv adv' : Adv) :
    (∃ gas w', runTx c adv gas w S (.exec t (.send k.a x (.swap bp ms dst)) []) = .ok w') ↔
      ∃ gas v', runTx c adv' gas v S' (.exec t (.send k.a x (.swap bp ms dst')) []) = .ok v' := by
  have hlt : x < 2 ^ 128 := lt_of_le_of_lt hx (held_lt hw.tokensOk t S)
  obtain ⟨e1, e2⟩ := ha.dir hd
  rw [C56_swap_iff hc hw hk hf hS hd x bp ms dst adv (adv.query 0),
    C56_swap_iff hc hv hkv (ha.fits hf) hS' hd x bp ms dst' adv' (adv'.query 0)]
  simp only [C66_simulation_iff hc hw hk hf hd _ hlt, C66_simulation_iff hc hv hkv (ha.fits hf) hd _ hlt, e1, e2]
  exact ⟨fun ⟨h1, _, h3, h4, _, h6⟩ => ⟨h1, hx', h3, h4, hdst', h6⟩, fun ⟨h1, _, h3, h4, _, h6⟩ => ⟨h1, hx, h3, h4, hdst, h6⟩⟩

/-- **C91.** If both go through, both receivers get the same. -/
theorem C91_swap_payout (hc : c.Lawful) (hw : Reachable c w) (hv : Reachable c v) (hk : k.Sound c w) (hkv : k.Sound c v)
    (ha : SamePool k w v) {S S' : Addr} (hS : c.IsUser S) (hS' : c.IsUser S') {t : Addr} {j : AssetInfo}
    (hd : k.Dir (.token t) j) {x : Nat} {bp ms bp' ms' : Option Nat} {dst dst' : Option Str} (hdst : dst ≠ some k.a)
    (hdst' : dst' ≠ some k.a) {adv adv' : Adv} {gas gas' : Nat} {w' v' : World}
    (h : runTx c adv gas w S (.exec t (.send k.a x (.swap bp ms dst)) []) = .ok w')
    (h' : runTx c adv' gas' v S' (.exec t (.send k.a x (.swap bp' ms' dst')) []) = .ok v') :
    held w' j (dst.getD S) - held w j (dst.getD S) = held v' j (dst'.getD S') - held v j (dst'.getD S') ∧
      held w' k.i0 k.a = held v' k.i0 k.a ∧ held w' k.i1 k.a = held v' k.i1 k.a := by
  obtain ⟨r, s, cm, hp, _, _, _, b1, b2, b3, b4⟩ := swap_tx hc hw hk hd hS hdst h
  obtain ⟨r', s', cm', hp', _, _, _, b1', b2', b3', b4'⟩ := swap_tx hc hv hkv hd hS' hdst' h'
  obtain ⟨e1, e2⟩ := ha.dir hd
  have hr : r = r' := by
    have h1 := hp.2.2.2
    rw [e1, e2, hp'.2.2.2] at h1
    cases h1
    rfl
  refine ⟨by omega, ?_⟩
  rcases hd with ⟨h1, h2⟩ | ⟨h1, h2⟩
  · subst h2
    simp only [← h1] at *
    omega
  · subst h2
    simp only [← h1] at *
    omega

/-- **C91.** Two users with at least `x` LP tokens each: one can withdraw them exactly if the other can. -/
theorem C91_withdraw (hc : c.Lawful) (hw : Reachable c w) (hv : Reachable c v) (hk : k.Sound c w) (hkv : k.Sound c v)
    (hf : Fits k w) (ha : SamePool k w v) {S S' : Addr} (hS : c.IsUser S) (hS' : c.IsUser S') {x : Nat}
    (hx : x ≤ held w (.token k.lt) S) (hx' : x ≤ held v (.token k.lt) S') (adv adv' : Adv) :
    (∃ gas w', runTx c adv gas w S (.exec k.lt (.send k.a x .withdrawLiquidity) []) = .ok w') ↔
      ∃ gas v', runTx c adv' gas v S' (.exec k.lt (.send k.a x .withdrawLiquidity) []) = .ok v' := by
  rw [C55_withdraw_iff hc hw hk hf hS, C55_withdraw_iff hc hv hkv (ha.fits hf) hS', ha.reserve0, ha.reserve1, ha.supply]
  exact ⟨fun ⟨h1, _, h3⟩ => ⟨h1, hx', h3⟩, fun ⟨h1, _, h3⟩ => ⟨h1, hx, h3⟩⟩

/-- **C91.** If both do, both get the same, and leave the same. -/
theorem C91_withdraw_payout (hc : c.Lawful) (hw : Reachable c w) (hv : Reachable c v) (hk : k.Sound c w)
    (hkv : k.Sound c v) (ha : SamePool k w v) {S S' : Addr} (hS : c.IsUser S) (hS' : c.IsUser S') {x : Nat} {adv adv' : Adv}
    {gas gas' : Nat} {w' v' : World}
    (h : runTx c adv gas w S (.exec k.lt (.send k.a x .withdrawLiquidity) []) = .ok w')
    (h' : runTx c adv' gas' v S' (.exec k.lt (.send k.a x .withdrawLiquidity) []) = .ok v') :
    held w' k.i0 S - held w k.i0 S = held v' k.i0 S' - held v k.i0 S' ∧
      held w' k.i1 S - held w k.i1 S = held v' k.i1 S' - held v k.i1 S' ∧ SamePool k w' v' := by
  obtain ⟨_, _, _, _, _, d⟩ := withdraw_tx hc hw hk hS h
  obtain ⟨_, _, _, _, _, d'⟩ := withdraw_tx hc hv hkv hS' h'
  rw [← ha.reserve0, ← ha.reserve1, ← ha.supply] at d'
  have e0 := ha.reserve0
  have e1 := ha.reserve1
  have e2 := ha.supply
  have a0 := d.user0
  have a1 := d.user1
  have a2 := d.pair0
  have a3 := d.pair1
  have a4 := d.supply
  have b0 := d'.user0
  have b1 := d'.user1
  have b2 := d'.pair0
  have b3 := d'.pair1
  have b4 := d'.supply
  exact ⟨by omega, by omega, by omega, by omega, by omega⟩

/-- **C91.** Two users who both have ready what they offer, and who are both or neither on the whitelist (which matters only
for the first deposit): the pair accepts the deposit of one exactly if it accepts that of the other. -/
theorem C91_deposit (hc : c.Lawful) (hw : Reachable c w) (hv : Reachable c v) (hk : k.Sound c w) (hkv : k.Sound c v)
    (ha : SamePool k w v) {S S' : Addr} (hS : c.IsUser S) (hS' : c.IsUser S')
    (hwl : supplyAt w k.lt = 0 → (S ∈ k.s.requirements.whitelist ↔ S' ∈ k.s.requirements.whitelist)) {d0 d1 : Nat}
    {funds funds' : List Coin} (hr : Ready k S funds d0 d1 w) (hr' : Ready k S' funds' d0 d1 v) {assets assets' : Asset × Asset}
    (hn : Names k assets d0 d1) (hn' : Names k assets' d0 d1) (tol : Option Nat) {rcv rcv' : Option Str}
    (hrcv : ∀ r, rcv = some r → c.api.validate r = .ok r) (hrcv' : ∀ r, rcv' = some r → c.api.validate r = .ok r)
    (adv adv' : Adv) :
    (∃ gas w', runTx c adv gas w S (.exec k.a (.provideLiquidity assets tol rcv) funds) = .ok w') ↔
      ∃ gas v', runTx c adv' gas v S' (.exec k.a (.provideLiquidity assets' tol rcv') funds') = .ok v' := by
  rw [C67_deposit_iff hc hw hk _ tol rcv funds adv hS, C67_deposit_iff hc hv hkv _ tol rcv' funds' adv' hS']
  have key : ∀ {w v : World} {S S' : Addr} {as as' : Asset × Asset} {rcv rcv' : Option Str} {funds funds' : List Coin},
      SamePool k w v → (supplyAt w k.lt = 0 → (S ∈ k.s.requirements.whitelist ↔ S' ∈ k.s.requirements.whitelist)) →
      Names k as d0 d1 → Names k as' d0 d1 → Ready k S' funds' d0 d1 v → (∀ r, rcv' = some r → c.api.validate r = .ok r) →
      (∃ d0 d1 s, Acceptable c k w S as tol rcv funds d0 d1 s) → ∃ d0 d1 s, Acceptable c k v S' as' tol rcv' funds' d0 d1 s := by
    intro w v S S' as as' rcv rcv' funds funds' ha hwl hn hn' hr' hrcv' h
    obtain ⟨e0, e1, s, h⟩ := h
    obtain ⟨rfl, rfl⟩ := hn.uniq hk.ne h.names
    have r0 := ha.reserve0
    have r1 := ha.reserve1
    refine ⟨e0, e1, s, hn', hr', ⟨?_, ?_⟩, h.range, hrcv', ?_, ?_, h.pos, ha.supply ▸ h.supply⟩
    · intro d hd
      have h1 := h.fits.1 d hd
      rw [hd] at r0
      simp only [held] at r0
      omega
    · intro d hd
      have h1 := h.fits.2 d hd
      rw [hd] at r1
      simp only [held] at r1
      omega
    · rw [← r0, ← r1]
      exact h.tolerance
    · rw [← r0, ← r1, ← ha.supply]
      exact ⟨fun hT => ⟨(hwl hT).mp (h.worth.first hT).1, (h.worth.first hT).2⟩, fun hT => h.worth.later hT⟩
  exact ⟨key ha hwl hn hn' hr' hrcv', key ha.symm (fun hT => (hwl (ha.supply.trans hT)).symm) hn' hn hr hrcv⟩

/-- **C91.** If both deposits are accepted, both are credited the same number of LP tokens, and the pair is left alike. -/
theorem C91_deposit_credit (hc : c.Lawful) (hw : Reachable c w) (hv : Reachable c v) (hk : k.Sound c w) (hkv : k.Sound c v)
    (ha : SamePool k w v) {S S' : Addr} (hS : c.IsUser S) (hS' : c.IsUser S') {d0 d1 : Nat} {funds funds' : List Coin}
    {assets assets' : Asset × Asset} (hn : Names k assets d0 d1) (hn' : Names k assets' d0 d1) {tol tol' : Option Nat}
    {rcv rcv' : Option Str} {adv adv' : Adv} {gas gas' : Nat} {w' v' : World}
    (h : runTx c adv gas w S (.exec k.a (.provideLiquidity assets tol rcv) funds) = .ok w')
    (h' : runTx c adv' gas' v S' (.exec k.a (.provideLiquidity assets' tol' rcv') funds') = .ok v') :
    held w' (.token k.lt) (rcv.getD S) - held w (.token k.lt) (rcv.getD S) =
        held v' (.token k.lt) (rcv'.getD S') - held v (.token k.lt) (rcv'.getD S') ∧ SamePool k w' v' := by
  obtain ⟨e0, e1, s, n, _, _, _, _, hs, d⟩ := deposit_tx hc hw hk hS h
  obtain ⟨e0', e1', s', n', _, _, _, _, hs', d'⟩ := deposit_tx hc hv hkv hS' h'
  obtain ⟨rfl, rfl⟩ := hn.uniq hk.ne n
  obtain ⟨rfl, rfl⟩ := hn'.uniq hk.ne n'
  rw [← ha.reserve0, ← ha.reserve1, ← ha.supply] at hs'
  have he : s = s' := by
    rw [share_iff] at hs hs'
    by_cases hT : supplyAt w k.lt = 0
    · obtain ⟨_, _, _, _, a5, a6⟩ := hs.first hT
      obtain ⟨_, _, _, _, b5, b6⟩ := hs'.first hT
      exact (Nat.eq_sqrt.mpr ⟨a5, a6⟩).trans (Nat.eq_sqrt.mpr ⟨b5, b6⟩).symm
    · rw [← share_iff] at hs hs'
      simp only [Pair.shareFor, if_neg hT] at hs hs'
      exact Except.ok.inj (hs.symm.trans hs')
  have r0 := ha.reserve0
  have r1 := ha.reserve1
  have r2 := ha.supply
  have a0 := d.lp
  have a2 := d.pair0
  have a3 := d.pair1
  have a4 := d.supply
  have b0 := d'.lp
  have b2 := d'.pair0
  have b3 := d'.pair1
  have b4 := d'.supply
  exact ⟨by omega, by omega, by omega, by omega⟩

end

namespace Demo

/-- `user` gives `user2` some of everything, and a pair C/B exists that is traded too; later `user2` asks. -/
def gift : World := worldOf (runs [.exec tA (.transfer user2 5000) [], .exec tB (.transfer user2 5000) [],
  .exec lpAB (.transfer user2 700) [], .exec tB (.send pBC 100 (.swap none none none)) []] deployed)
theorem gift_run : runs [.exec tA (.transfer user2 5000) [], .exec tB (.transfer user2 5000) [],
    .exec lpAB (.transfer user2 700) [], .exec tB (.send pBC 100 (.swap none none none)) []] deployed = .ok gift :=
  worldOf_eq (by decide +kernel)
def gift1 : World := worldOf (runTx chain idle 20 gift user2 (approve tA pAB))
def gift2 : World := worldOf (runTx chain idle 20 gift1 user2 (approve tB pAB))
def peer : World := { gift2 with block := ⟨77, 777⟩ }
theorem peer_reachable : Reachable chain peer :=
  .step _ _ (.step _ _ (.step _ _ (deployed_reachable.later (later_runs gift_run))
    (.tx idle 20 gift gift1 user2 (approve tA pAB) isUser_user2 (worldOf_eq (by decide +kernel))))
    (.tx idle 20 gift1 gift2 user2 (approve tB pAB) isUser_user2 (worldOf_eq (by decide +kernel)))) (.block _ _)
theorem peer_sound : siteAB.Sound chain peer :=
  sound_of (k := siteAB) (x := tA) (y := tB) (by decide +kernel) ⟨rfl, rfl, rfl⟩ rfl rfl (by decide +kernel) (by decide +kernel)
theorem peer_alike : SamePool siteAB allowed peer := ⟨by decide +kernel, by decide +kernel, by decide +kernel⟩
theorem fits_AB (w : World) : Fits siteAB w := ⟨(fun _ h => nomatch h), (fun _ h => nomatch h)⟩
theorem peer_ready : Ready siteAB user2 [] 1000 2001 peer :=
  ⟨by simp, by simp, by simp, (fun _ h => nomatch h), (fun _ h => nomatch h), by decide +kernel, by decide +kernel,
    mayTake_of (by decide +kernel), mayTake_of (by decide +kernel)⟩

example (adv adv' : Adv) := C91_swap lawful allowed_reachable peer_reachable sound_allowed peer_sound (fits_AB _) peer_alike
  isUser_user isUser_user2 (t := tA) (j := .token tB) (.inl ⟨rfl, rfl⟩) (x := 1000) (by decide +kernel) (by decide +kernel)
  none (some 100000000000000000) (dst := none) (dst' := none) (by simp) (by simp) adv adv'
example := C91_swap_payout lawful allowed_reachable peer_reachable sound_allowed peer_sound peer_alike
  isUser_user isUser_user2 (t := tA) (j := .token tB) (.inl ⟨rfl, rfl⟩) (x := 1000) (dst := none) (dst' := none) (bp := none)
  (bp' := none) (ms := none) (ms' := none) (by simp) (by simp) (adv := idle) (adv' := idle) (gas := 20) (gas' := 20)
  (worldOf_eq (by decide +kernel)) (worldOf_eq (by decide +kernel))
example (adv adv' : Adv) := C91_withdraw lawful allowed_reachable peer_reachable sound_allowed peer_sound (fits_AB _) peer_alike
  isUser_user isUser_user2 (x := 700) (by decide +kernel) (by decide +kernel) adv adv'
example := C91_withdraw_payout lawful allowed_reachable peer_reachable sound_allowed peer_sound peer_alike isUser_user
  isUser_user2 (x := 700) (adv := idle) (adv' := idle) (gas := 20) (gas' := 20) (worldOf_eq (by decide +kernel))
  (worldOf_eq (by decide +kernel))
example (adv adv' : Adv) := C91_deposit lawful allowed_reachable peer_reachable sound_allowed peer_sound peer_alike isUser_user
  isUser_user2 (fun h => absurd h (by decide +kernel)) ready_allowed peer_ready (.inl rfl) (.inr rfl) none (rcv := none)
  (rcv' := none) (by simp) (by simp) adv adv'
example := C91_deposit_credit lawful allowed_reachable peer_reachable sound_allowed peer_sound peer_alike isUser_user
  isUser_user2 (d0 := 1000) (d1 := 2001) (.inl rfl) (.inr rfl) (tol := none) (tol' := none) (rcv := none) (rcv' := none)
  (funds := []) (funds' := []) (adv := idle) (adv' := idle) (gas := 20) (gas' := 20) (worldOf_eq (by decide +kernel))
  (worldOf_eq (by decide +kernel))

end Demo
end Halo
