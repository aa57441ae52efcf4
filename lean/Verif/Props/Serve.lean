import Verif.Props.Moment
import Verif.Props.DepositIff
/-! # Contracts are served as users are (C121)

A contract that trades at a pair in the middle of a transaction (an aggregator, a vault, a lender that liquidates) relies on the pair as a
user does who has a transaction of its own. The theorems are about every moment `e` of every attempt at a transaction at which somebody `S` other
than the pair, its LP token and its assets acts, and about everything `S` may ask for at that moment: `run c adv n e.1 [.msg S …]` carries out
the request, and everything it entails, with gas `n`. -/

namespace Halo
open _root_.Halo.Spec

/-- At a moment of an attempt at a transaction somebody acts who is none of the contracts of the pair. -/
structure Acts (c : Chain) (w : World) (k : PairSite) (S : Addr) (v : World) : Prop where
  moment : ∃ u m adv gas f, c.IsUser u ∧ (v, f) ∈ trace c adv gas w [.msg u (plain m)] ∧ f.actor = S
  pair : S ≠ k.a
  lp : S ≠ k.lt
  asset0 : k.i0 ≠ .token S
  asset1 : k.i1 ≠ .token S

theorem Acts.facts {c : Chain} (hc : c.Lawful) {w : World} (hw : Reachable c w) {k : PairSite} (hk : k.Sound c w) {S : Addr} {v : World}
    (h : Acts c w k S v) : k.Broken v ∨ (k.Good v ∧ TokensOk v ∧ c.api.validate S = .ok S) := by
  obtain ⟨⟨u, m, adv, gas, f, hu, hmem, rfl⟩, h1, h2, h3, h4⟩ := h
  have hx := hk.ctx hc
  have hg := hk.good hc hw
  obtain ⟨pre, post, hpos⟩ := List.append_of_mem hmem
  obtain ⟨rest, hs, ht⟩ := trace_all (P := fun v fs => Sane c v fs ∧ TokensOk v) (fun _ _ _ _ _ _ hp hs => ⟨hp.1.step hs, hp.2.step hs⟩)
    ⟨hw.sane.start hu m, hw.tokensOk⟩ _ hmem
  rcases PairSite.Good.moments hx (hg.resolve hw.contractsAt hx) _ hg (hw.sane.start hu m) (hg.quiet_user hw hu m) pre _ post hpos
    (.inr ⟨h1, h2, h3, h4⟩) with hb | ⟨hg', _⟩
  · exact .inl hb
  refine .inr ⟨hg', ht, ?_⟩
  rcases hs.actors f (by simp) with hu | hk2
  · exact hu.2
  · obtain ⟨kc, hkc⟩ := Option.isSome_iff_exists.mp hk2
    obtain ⟨j, _, hj⟩ := hs.at_addr _ _ hkc
    obtain ⟨b, e1, e2⟩ := hc.addr_valid j
    exact validate_eq_ok.mpr ⟨rfl, b, by rw [hj]; exact e1, by rw [hj]; exact e2⟩

/-- **C121.** A swap goes through exactly if the pair, asked for a quote at that moment, quotes amounts that respect the limits (and the
offer is there and the receiver an address). -/
theorem C121_swap_iff {c : Chain} (hc : c.Lawful) {w : World} (hw : Reachable c w) {k : PairSite} (hk : k.Sound c w) {S : Addr} {v : World}
    (ha : Acts c w k S v) (hf : Fits k v) {t : Addr} {j : AssetInfo} (hd : k.Dir (.token t) j) (x : Nat) (bp ms : Option Nat)
    (dst : Option Str) (adv : Adv) (q : Querier) :
    k.Broken v ∨ ((∃ n n' v', run c adv n v [.msg S (plain (.exec t (.send k.a x (.swap bp ms dst)) []))] = .ok (n', v')) ↔
      0 < x ∧ x ≤ held v (.token t) S ∧ (∀ p, bp = some p → p < 2 ^ 128) ∧ (∀ m, ms = some m → m < 2 ^ 128) ∧
      (∀ s, dst = some s → c.api.validate s = .ok s) ∧
      ∃ quote, (querier c q v).simulate k.a ⟨.token t, x⟩ = .ok quote ∧
        SpreadOk bp ms (k.decimals (.token t)).1 (k.decimals (.token t)).2 x quote.amount quote.spread) := by
  rcases ha.facts hc hw hk with hb | ⟨hg, ht, hS⟩
  · exact .inl hb
  · exact .inr (hg.swap_iff ht (hk.ctx hc) (addr_facts hc hw hk.pair).1 (human_self hc hw hk.pair) hf (PairSite.resolve_of_validate hS)
      ha.pair hd x bp ms dst adv q)

/-- **C121.** It pays exactly what was quoted: the offer goes to the pair, the quoted amount to the receiver, and nothing else moves. -/
theorem C121_quote_is_paid {c : Chain} (hc : c.Lawful) {w : World} (hw : Reachable c w) {k : PairSite} (hk : k.Sound c w) {S : Addr}
    {v v' : World} (ha : Acts c w k S v) {t : Addr} {j : AssetInfo} (hd : k.Dir (.token t) j) {q : Querier} {x : Nat} {quote : SimResp}
    (hq : (querier c q v).simulate k.a ⟨.token t, x⟩ = .ok quote) {adv : Adv} {n n' : Nat} {bp ms : Option Nat} {dst : Option Str}
    (hr : run c adv n v [.msg S (plain (.exec t (.send k.a x (.swap bp ms dst)) []))] = .ok (n', v')) :
    k.Broken v ∨ (x ≤ held v (.token t) S ∧ held v' (.token t) S = held v (.token t) S - x ∧
    held v' (.token t) k.a = held v (.token t) k.a + x ∧
    (dst ≠ some k.a → quote.amount ≤ held v j k.a ∧ held v' j k.a = held v j k.a - quote.amount ∧
      held v' j (dst.getD S) = held v j (dst.getD S) + quote.amount) ∧
    (∀ b, b ≠ S → b ≠ k.a → held v' (.token t) b = held v (.token t) b) ∧
    (∀ b, b ≠ dst.getD S → b ≠ k.a → held v' j b = held v j b) ∧
    (∀ i b, i ≠ .token t → i ≠ j → held v' i b = held v i b)) := by
  rcases ha.facts hc hw hk with hb | ⟨hg, ht, hS⟩
  · exact .inl hb
  · exact .inr (hg.quote_paid (hk.ctx hc) (addr_facts hc hw hk.pair).1 (human_self hc hw hk.pair) hd hq (PairSite.resolve_of_validate hS)
      ha.pair hr)

/-- **C121.** A withdrawal goes through exactly if the LP tokens are there and both refunds are at least one unit. -/
theorem C121_withdraw_iff {c : Chain} (hc : c.Lawful) {w : World} (hw : Reachable c w) {k : PairSite} (hk : k.Sound c w) {S : Addr} {v : World}
    (ha : Acts c w k S v) (hf : Fits k v) (x : Nat) (adv : Adv) :
    k.Broken v ∨ ((∃ n n' v', run c adv n v [.msg S (plain (.exec k.lt (.send k.a x .withdrawLiquidity) []))] = .ok (n', v')) ↔
      0 < x ∧ x ≤ held v (.token k.lt) S ∧ 1 ≤ refund (held v k.i0 k.a) x (supplyAt v k.lt) ∧
        1 ≤ refund (held v k.i1 k.a) x (supplyAt v k.lt)) := by
  rcases ha.facts hc hw hk with hb | ⟨hg, ht, hS⟩
  · exact .inl hb
  · exact .inr (hg.withdraw_iff ht (hk.ctx hc) (addr_facts hc hw hk.pair).1 hf (PairSite.resolve_of_validate hS) ha.pair x adv)

/-- **C121.** It pays exactly the share of the reserves as they are at that moment. -/
theorem C121_withdraw_exact {c : Chain} (hc : c.Lawful) {w : World} (hw : Reachable c w) {k : PairSite} (hk : k.Sound c w) {S : Addr}
    {v v' : World} (ha : Acts c w k S v) {x : Nat} {adv : Adv} {n n' : Nat}
    (hr : run c adv n v [.msg S (plain (.exec k.lt (.send k.a x .withdrawLiquidity) []))] = .ok (n', v')) :
    k.Broken v ∨ Withdrawn k S x (refund (held v k.i0 k.a) x (supplyAt v k.lt)) (refund (held v k.i1 k.a) x (supplyAt v k.lt)) v v' := by
  rcases ha.facts hc hw hk with hb | ⟨hg, ht, hS⟩
  · exact .inl hb
  · exact .inr (hg.withdrawn (hk.ctx hc) (addr_facts hc hw hk.pair).1 (PairSite.resolve_of_validate hS) ha.pair hr).2.2.2.2.2

/-- **C121.** A deposit goes through exactly if it is acceptable (C67). -/
theorem C121_deposit_iff {c : Chain} (hc : c.Lawful) {w : World} (hw : Reachable c w) {k : PairSite} (hk : k.Sound c w) {S : Addr} {v : World}
    (ha : Acts c w k S v) (assets : Asset × Asset) (tol : Option Nat) (receiver : Option Str) (funds : List Coin) (adv : Adv) :
    k.Broken v ∨
      ((∃ n n' v', run c adv n v [.msg S (plain (.exec k.a (.provideLiquidity assets tol receiver) funds))] = .ok (n', v')) ↔
        ∃ d0 d1 s, Acceptable c k v S assets tol receiver funds d0 d1 s) := by
  rcases ha.facts hc hw hk with hb | ⟨hg, ht, hS⟩
  · exact .inl hb
  · exact .inr (hg.deposit_iff ht (hk.ctx hc) (addr_facts hc hw hk.pair).1 assets tol receiver funds adv hS ha.pair)

/-- **C121.** It takes exactly the deposit and mints exactly the LP tokens it is worth (C67). -/
theorem C121_deposit_exact {c : Chain} (hc : c.Lawful) {w : World} (hw : Reachable c w) {k : PairSite} (hk : k.Sound c w) {S : Addr}
    {v v' : World} (ha : Acts c w k S v) {assets : Asset × Asset} {tol : Option Nat} {receiver : Option Str} {funds : List Coin}
    {adv : Adv} {n n' : Nat}
    (hr : run c adv n v [.msg S (plain (.exec k.a (.provideLiquidity assets tol receiver) funds))] = .ok (n', v')) :
    k.Broken v ∨ ∃ d0 d1 s, Acceptable c k v S assets tol receiver funds d0 d1 s ∧
      Deposited k S (receiver.getD S) funds d0 d1 s v v' := by
  rcases ha.facts hc hw hk with hb | ⟨hg, ht, hS⟩
  · exact .inl hb
  · exact .inr (hg.deposit_done ht (hk.ctx hc) (addr_facts hc hw hk.pair).1 ha.pair hr)

/-! ## Examples: the foreign contract of C119, in the middle of its transaction -/

namespace Demo

private theorem serve_reachable : Reachable chain lendWorld := filledAX_reachable.later (later_runs (show runs lendSetup filledAX = .ok lendWorld from
  worldOf_eq (by decide +kernel)))
private theorem serve_sound : siteAB.Sound chain lendWorld :=
  sound_of (k := siteAB) (x := tA) (y := tB) (by decide +kernel) ⟨rfl, rfl, rfl⟩ rfl rfl (by decide +kernel) (by decide +kernel)

private theorem serve_len : lendTrace.length = 11 := by decide +kernel
/-- After its swap, when it calls itself. -/
def serveMoment : World × Frame := lendTrace[4]'(by rw [serve_len]; omega)
theorem serve_acts : Acts chain lendWorld siteAB tX serveMoment.1 where
  moment := ⟨user, lendTx, lendAdv, 20, serveMoment.2, isUser_user, List.getElem_mem _, by decide +kernel⟩
  pair := by decide +kernel
  lp := by decide +kernel
  asset0 := by decide +kernel
  asset1 := by decide +kernel

private theorem serve_whole : ¬ siteAB.Broken serveMoment.1 := by
  have h0 : (match serveMoment.1.contracts pAB with | some ⟨_, .pair _⟩ => true | _ => false) = true := by decide +kernel
  have hA : (match serveMoment.1.contracts tA with | some ⟨_, .token _⟩ => true | _ => false) = true := by decide +kernel
  have hB : (match serveMoment.1.contracts tB with | some ⟨_, .token _⟩ => true | _ => false) = true := by decide +kernel
  rintro (⟨adm, h⟩ | ⟨t, adm, h1, h⟩)
  · rw [show siteAB.a = pAB from rfl] at h
    rw [h] at h0
    cases h0
  · rcases h1 with h1 | h1 <;> cases h1
    · rw [h] at hA
      cases hA
    · rw [h] at hB
      cases hB

/-- It withdraws 1000 of the 14142 LP tokens from reserves of 10500 A and 19050 B. -/
theorem serve_withdraws : ∃ n n' v', run chain idle n serveMoment.1 [.msg tX (plain (.exec lpAB (.send pAB 1000 .withdrawLiquidity) []))] = .ok (n', v') :=
  ((C121_withdraw_iff lawful serve_reachable serve_sound serve_acts (fits_of rfl rfl _) 1000 idle).resolve_left serve_whole).mpr
    (by decide +kernel)
example : ∃ v', Withdrawn siteAB tX 1000 742 1347 serveMoment.1 v' := by
  obtain ⟨n, n', v', h⟩ := serve_withdraws
  refine ⟨v', ?_⟩
  have h1 := (C121_withdraw_exact lawful serve_reachable serve_sound serve_acts h).resolve_left serve_whole
  have e0 : refund (held serveMoment.1 siteAB.i0 siteAB.a) 1000 (supplyAt serveMoment.1 siteAB.lt) = 742 := by decide +kernel
  have e1 : refund (held serveMoment.1 siteAB.i1 siteAB.a) 1000 (supplyAt serveMoment.1 siteAB.lt) = 1347 := by decide +kernel
  rwa [e0, e1] at h1

/-- It swaps back 400 of the B it received, at the quote of that moment. -/
def serveQuote : SimResp := ⟨215, 5, 0⟩
theorem serve_quote : (querier chain (idle.query 0) serveMoment.1).simulate pAB ⟨.token tB, 400⟩ = .ok serveQuote := by decide +kernel
private theorem serve_dir : siteAB.Dir (.token tB) (.token tA) := .inr ⟨rfl, rfl⟩
theorem serve_swaps : ∃ n n' v', run chain idle n serveMoment.1 [.msg tX (plain (.exec tB (.send pAB 400 (.swap none none none)) []))] = .ok (n', v') :=
  ((C121_swap_iff lawful serve_reachable serve_sound serve_acts (fits_of rfl rfl _) serve_dir 400 none none none idle
    (idle.query 0)).resolve_left serve_whole).mpr
    ⟨by norm_num, by decide +kernel, by simp, by simp, by simp, _, serve_quote, by
      have : siteAB.decimals (.token tB) = (6, 6) := by decide +kernel
      rw [this]
      exact ⟨by omega, by omega, trivial⟩⟩
example : ∃ v', held v' (.token tA) tX = held serveMoment.1 (.token tA) tX + 215 := by
  obtain ⟨n, n', v', h⟩ := serve_swaps
  exact ⟨v', (((C121_quote_is_paid lawful serve_reachable serve_sound serve_acts serve_dir serve_quote h).resolve_left serve_whole).2.2.2.1
    (by simp)).2.2⟩

/-- Nobody gave the pair an allowance over the A and B of the contract: a deposit is refused. -/
example : ¬ ∃ n n' v', run chain idle n serveMoment.1
    [.msg tX (plain (.exec pAB (.provideLiquidity (⟨.token tA, 100⟩, ⟨.token tB, 200⟩) none none) []))] = .ok (n', v') := by
  intro h
  obtain ⟨d0, d1, s, h⟩ := ((C121_deposit_iff lawful serve_reachable serve_sound serve_acts (⟨.token tA, 100⟩, ⟨.token tB, 200⟩) none none []
    idle).resolve_left serve_whole).mp h
  obtain ⟨adm, st, h1, a, h2, _⟩ := h.ready.may0 tA rfl
  have h3 : (match serveMoment.1.contracts tA with | some ⟨_, .token st⟩ => (st.allowances.get (tX, pAB)).isNone | _ => false) = true := by
    decide +kernel
  rw [h1] at h3
  simp only [show siteAB.a = pAB from rfl] at h2
  simp [h2] at h3

/-- Here the contract swaps, approves, and then calls itself: at that moment it can deposit. -/
def vaultAdv : Adv := { claims 1000 with
  act := fun n a => if n = 19 ∧ a = tX then .ok [plain (.exec tA (.send pAB 500 (.swap none none none)) []), plain (approve tA pAB),
    plain (approve tB pAB), plain (.exec tX (.burn 1) [])] else .ok [] }
def vaultTrace : List (World × Frame) := trace chain vaultAdv 20 lendWorld [.msg user (plain lendTx)]
private theorem vault_len : vaultTrace.length = 7 := by decide +kernel
def vaultMoment : World × Frame := vaultTrace[6]'(by rw [vault_len]; omega)
theorem vault_acts : Acts chain lendWorld siteAB tX vaultMoment.1 where
  moment := ⟨user, lendTx, vaultAdv, 20, vaultMoment.2, isUser_user, List.getElem_mem _, by decide +kernel⟩
  pair := by decide +kernel
  lp := by decide +kernel
  asset0 := by decide +kernel
  asset1 := by decide +kernel
def vaultRun : R (Nat × World) := run chain idle 9 vaultMoment.1
  [.msg tX (plain (.exec pAB (.provideLiquidity (⟨.token tA, 105⟩, ⟨.token tB, 191⟩) none none) []))]
private theorem vault_ok : isOk vaultRun = true := by decide +kernel
example : siteAB.Broken vaultMoment.1 ∨ ∃ d0 d1 s v', Deposited siteAB tX tX [] d0 d1 s vaultMoment.1 v' := by
  cases h : vaultRun with
  | error e => have h2 := vault_ok; rw [h] at h2; cases h2
  | ok r =>
    refine (C121_deposit_exact lawful serve_reachable serve_sound vault_acts (n' := r.1) (v' := r.2) h).imp id ?_
    rintro ⟨d0, d1, s, _, h⟩
    exact ⟨d0, d1, s, r.2, h⟩

end Demo
end Halo
