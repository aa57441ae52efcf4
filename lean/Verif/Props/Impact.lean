import Verif.Props.Swap
/-! # C58: trades move the price against those who follow -/

namespace Halo
open _root_.Halo.Spec

/-- **C58**, for the price formula: more of the offered asset and less of the asked asset in the pool never make the same
offer return more. -/
theorem C58_reserves (o₁ a₁ o₂ a₂ x r₁ s₁ c₁ r₂ s₂ c₂ : Nat) (h₁ : Priced o₁ a₁ x r₁ s₁ c₁)
    (h₂ : Priced o₂ a₂ x r₂ s₂ c₂) (ho : o₁ ≤ o₂) (ha : a₂ ≤ a₁) : r₂ ≤ r₁ := by
  obtain ⟨h1, _, e1, _⟩ := h₁.form
  obtain ⟨h2, _, e2, _⟩ := h₂.form
  have g1 := gross_anti_offer (a := a₂) (x := x) h1 ho
  have g2 := gross_mono_ask (x := x) h1 ha
  omega

example : ∃ o₁ a₁ o₂ a₂ x r₁ s₁ c₁ r₂ s₂ c₂, Priced o₁ a₁ x r₁ s₁ c₁ ∧ Priced o₂ a₂ x r₂ s₂ c₂ ∧ o₁ < o₂ ∧ a₂ < a₁ := by
  refine ⟨10000, 20000, 11000, 18187, 1000, 1813, 182, 5, 1511, 138, 4, priced_example,
    ⟨by norm_num, by norm_num, by norm_num, ?_⟩, by norm_num, by norm_num⟩
  rw [computeSwap_ok_iff (by norm_num) (by norm_num) (by norm_num)]
  norm_num [grossOf, idealOf, DF]

/-- **C58**, for the simulation query: of two states, the one in which the pair holds at least as much of the offered asset
and at most as much of the asked one quotes no more for any offer. -/
theorem C58_quotes {c : Chain} (hc : c.Lawful) {w v : World} (hw : Reachable c w) (hv : Reachable c v) {k : PairSite}
    (hk : k.Sound c w) (hk' : k.Sound c v) {i j : AssetInfo} (hd : k.Dir i j) (ho : held w i k.a ≤ held v i k.a)
    (ha : held v j k.a ≤ held w j k.a) {q q' : Querier} {x : Nat} (hx : x < 2 ^ 128) {quote quote' : SimResp}
    (h : (querier c q w).simulate k.a ⟨i, x⟩ = .ok quote) (h' : (querier c q' v).simulate k.a ⟨i, x⟩ = .ok quote') :
    quote'.amount ≤ quote.amount := by
  have hB : B128 = 2 ^ 128 := rfl
  obtain ⟨b0, b1, p⟩ := quote_price' hc hw hk hd h
  obtain ⟨b0', b1', p'⟩ := quote_price' hc hv hk' hd h'
  exact C58_reserves _ _ _ _ _ _ _ _ _ _ _ ⟨by omega, by omega, hx, p⟩ ⟨by omega, by omega, hx, p'⟩ ho ha

/-- **C58.** After a user's swap of `t` against `j` no offer of `t` is quoted better than before, and no offer of `j` worse. -/
theorem C58_after_swap {c : Chain} (hc : c.Lawful) {w w' : World} (hw : Reachable c w) {k : PairSite}
    (hk : k.Sound c w) {t : Addr} {j : AssetInfo} (hd : k.Dir (.token t) j) {x : Nat} {adv : Adv} {gas : Nat} {S : Addr}
    (hS : c.IsUser S) {bp ms : Option Nat} {dst : Option Str} (hdst : dst ≠ some k.a)
    (h : runTx c adv gas w S (.exec t (.send k.a x (.swap bp ms dst)) []) = .ok w') {q q' : Querier} {y : Nat}
    (hy : y < 2 ^ 128) {quote quote' : SimResp} :
    ((querier c q w).simulate k.a ⟨.token t, y⟩ = .ok quote → (querier c q' w').simulate k.a ⟨.token t, y⟩ = .ok quote' →
      quote'.amount ≤ quote.amount) ∧
    ((querier c q w).simulate k.a ⟨j, y⟩ = .ok quote → (querier c q' w').simulate k.a ⟨j, y⟩ = .ok quote' →
      quote.amount ≤ quote'.amount) := by
  obtain ⟨r, s, cm, _, hk', _, _, e3, _, e5, _⟩ := swap_tx hc hw hk hd hS hdst h
  have hw' : Reachable c w' := .step _ _ hw (.tx _ _ _ _ _ _ hS h)
  exact ⟨fun h1 h2 => C58_quotes hc hw hw' hk hk' hd (by omega) (by omega) hy h1 h2,
    fun h1 h2 => C58_quotes hc hw' hw hk' hk (hd.symm.imp And.symm And.symm) (by omega) (by omega) hy h2 h1⟩

/-- **C58.** Front-running in the same direction never improves what the victim gets: `F` swaps `y` first, then `S` swaps
`x`; had `S` swapped in the original state, the receiver would have got at least as much. -/
theorem C58_front_run {c : Chain} (hc : c.Lawful) {w w1 w2 w' : World} (hw : Reachable c w) {k : PairSite}
    (hk : k.Sound c w) {t : Addr} {j : AssetInfo} (hd : k.Dir (.token t) j) {x y : Nat} {adv1 adv2 adv' : Adv}
    {gas1 gas2 gas' : Nat} {F S : Addr} (hF : c.IsUser F) (hS : c.IsUser S) {bp1 ms1 bp ms : Option Nat}
    {dst1 dst : Option Str} (hd1 : dst1 ≠ some k.a) (hdst : dst ≠ some k.a)
    (h1 : runTx c adv1 gas1 w F (.exec t (.send k.a y (.swap bp1 ms1 dst1)) []) = .ok w1)
    (h2 : runTx c adv2 gas2 w1 S (.exec t (.send k.a x (.swap bp ms dst)) []) = .ok w2)
    (h' : runTx c adv' gas' w S (.exec t (.send k.a x (.swap bp ms dst)) []) = .ok w') :
    held w2 j (dst.getD S) - held w1 j (dst.getD S) ≤ held w' j (dst.getD S) - held w j (dst.getD S) := by
  obtain ⟨r1, s1, cm1, _, hk1, _, _, e3, _, e5, _⟩ := swap_tx hc hw hk hd hF hd1 h1
  have hw1 : Reachable c w1 := .step _ _ hw (.tx _ _ _ _ _ _ hF h1)
  obtain ⟨r2, s2, cm2, p2, _, _, _, _, _, _, f2⟩ := swap_tx hc hw1 hk1 hd hS hdst h2
  obtain ⟨r, s, cm, p, _, _, _, _, _, _, f⟩ := swap_tx hc hw hk hd hS hdst h'
  have := C58_reserves _ _ _ _ _ _ _ _ _ _ _ p p2 (by omega) (by omega)
  omega

namespace Demo

def hit : World := worldOf (runTx chain idle 20 leg1 user (.exec tA (.send pAB 2000 (.swap none none (some user2))) []))
theorem hit_run : runTx chain idle 20 leg1 user (.exec tA (.send pAB 2000 (.swap none none (some user2))) []) = .ok hit :=
  worldOf_eq (by decide +kernel)
example : 788 ≤ 950 :=
  (C58_after_swap lawful deployed_reachable sound_AB (t := tA) (j := .token tB) (.inl ⟨rfl, rfl⟩) isUser_user
    (by decide) leg1_run (q := q 0 0 0) (q' := q 0 0 0) (y := 500) (by decide) (quote := ⟨950, 48, 2⟩)
    (quote' := ⟨788, 36, 2⟩)).1 (val_eq (by decide +kernel)) (val_eq (by decide +kernel))
example := C58_front_run lawful deployed_reachable sound_AB (t := tA) (j := .token tB) (.inl ⟨rfl, rfl⟩) isUser_user
  isUser_user (by decide) (by decide) leg1_run hit_run swapA2_run
/-- The victim gets 2790 instead of 3324. -/
example : held hit (.token tB) user2 - held leg1 (.token tB) user2 = 2790 ∧
    held swapA2 (.token tB) user2 - held deployed (.token tB) user2 = 3324 := by decide +kernel

end Demo
end Halo
