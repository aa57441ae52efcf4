import Verif.Props.Commute
import Verif.Props.Limits
import Verif.Props.Provider
/-! # Liquidity that comes and goes around a trade (C113) -/

namespace Halo
open _root_.Halo.Spec CommuteL

private theorem take_price {o a o' a' b : Nat} (h : o * a ≤ o' * a') (hb : a' + b ≤ a) : o * b ≤ (o' - o) * (a - b) := by
  have h1 : o' * a' ≤ o' * (a - b) := Nat.mul_le_mul_left _ (by omega)
  have h2 : o * a = o * (a - b) + o * b := by rw [← Nat.mul_add]; congr 1; omega
  rw [Nat.sub_mul]
  omega

private theorem take_grows {o a o' a' b : Nat} (h : o * a ≤ o' * a') (ha : a ≠ 0) (hb : a' + b ≤ a) : o ≤ o' :=
  Nat.le_of_mul_le_mul_right (h.trans (Nat.mul_le_mul_left _ (by omega))) (Nat.pos_of_ne_zero ha)

private theorem product_of_value {p p' T T' : Nat} (h : p * T' ^ 2 ≤ p' * T ^ 2) (hT : T ≠ 0) (hTT : T ≤ T') : p ≤ p' :=
  Nat.le_of_mul_le_mul_right ((Nat.mul_le_mul_left p (Nat.pow_le_pow_left hTT 2)).trans h) (by positivity)

private theorem dir_product {k : PairSite} {i j : AssetInfo} (hd : k.Dir i j) (w : World) :
    held w i k.a * held w j k.a = held w k.i0 k.a * held w k.i1 k.a := by
  rcases hd with ⟨rfl, rfl⟩ | ⟨rfl, rfl⟩
  · rfl
  · exact Nat.mul_comm _ _

/-- **C113.** However a pair is used, by swaps, deposits, withdrawals, donations and burned LP tokens in any order and by anybody: if it
ends with at least as many LP tokens as it had, those who together took `b` of one asset out of it have together paid in at
least `o*b/(a-b)` of the other, where `o` and `a` are the reserves at the start. Coming in and going out again makes nothing
cheaper than a single swap without fee. -/
theorem C113_average_price {c : Chain} (hc : c.Lawful) {w w' : World} (hw : Reachable c w)
    {tr : List (World × Frame)} (hl : Hist c w tr w') {k : PairSite} (hk : k.Sound c w)
    (hf : ∀ e ∈ k.calls c tr, ¬ First e) (hn : ∀ e ∈ k.calls c tr, ¬ Leak e) (hT : supplyAt w k.lt ≠ 0)
    (hTT : supplyAt w k.lt ≤ supplyAt w' k.lt) {i j : AssetInfo} (hd : k.Dir i j) {b : Nat}
    (hb : held w' j k.a + b ≤ held w j k.a) :
    k.Broken w' ∨ held w i k.a * b ≤ (held w' i k.a - held w i k.a) * (held w j k.a - b) := by
  refine (C22_no_leak_partial hc hw hl hk hf hn).imp id fun h => take_price ?_ hb
  have := product_of_value h hT hTT
  rcases hd with ⟨rfl, rfl⟩ | ⟨rfl, rfl⟩
  · exact this
  · rw [Nat.mul_comm, Nat.mul_comm (held w' _ _)]; exact this

/-- **C113.** No attack on a trade, with whatever means: others use the pair as they like before and after a swap in which `S` pays `v`
for `b`. If in the end there are as many LP tokens as at the beginning, and the others together have paid in nothing of the
asset that `S` bought, then what they together have gained, `G` of the asset that `S` paid, is at most `v`, and the remaining
`v - G` is still at least the price `o*b/(a-b)` of `b` without fee at the reserves before. -/
theorem C113_any_attack {c : Chain} (hc : c.Lawful) {w w1 w2 w3 : World} (hw : Reachable c w) {k : PairSite} (hk : k.Sound c w)
    {tr1 tr2 : List (World × Frame)} (h1 : Hist c w tr1 w1) (h3 : Hist c w2 tr2 w3)
    (f1 : ∀ e ∈ k.calls c tr1, ¬ First e) (n1 : ∀ e ∈ k.calls c tr1, ¬ Leak e)
    (f3 : ∀ e ∈ k.calls c tr2, ¬ First e) (n3 : ∀ e ∈ k.calls c tr2, ¬ Leak e)
    {t : Addr} {j : AssetInfo} (hd : k.Dir (.token t) j) {v b G : Nat} {adv : Adv} {gas : Nat} {S : Addr} (hS : c.IsUser S)
    {bp ms : Option Nat} {dst : Option Str} (hdst : dst ≠ some k.a)
    (h2 : runTx c adv gas w1 S (.exec t (.send k.a v (.swap bp ms dst)) []) = .ok w2)
    (_hb : held w2 j (dst.getD S) = held w1 j (dst.getD S) + b)
    (n2 : held w2 (.token t) k.a ≤ 10 ^ 18 ∨ held w2 j k.a + 334 ≤ held w1 j k.a)
    (hT : supplyAt w k.lt ≠ 0) (hT1 : supplyAt w1 k.lt ≠ 0) (hTT : supplyAt w k.lt ≤ supplyAt w3 k.lt)
    (hG : held w3 (.token t) k.a + G = held w (.token t) k.a + v) (hj : held w3 j k.a + b ≤ held w j k.a) :
    k.Broken w1 ∨ k.Broken w3 ∨ (held w j k.a ≠ 0 → G ≤ v) ∧ held w (.token t) k.a * b ≤ (v - G) * (held w j k.a - b) := by
  rcases C22_no_leak_partial hc hw h1 hk f1 n1 with hbr | v1
  · exact .inl hbr
  rcases C21_constant_product hc hw h1 hk with hbr | ⟨hk1, _⟩
  · exact .inl hbr
  have hw1 := hw.later h1.later
  have hw2 : Reachable c w2 := .step _ _ hw1 (.tx _ _ _ _ _ _ hS h2)
  obtain ⟨_, _, _, _, hk2, _⟩ := swap_tx hc hw1 hk1 hd hS hdst h2
  have v2 := C01_swap_tx_partial hc hw1 hk1 hd hS hdst h2 n2
  obtain ⟨_, _, _, _, hkeep, _⟩ := swap_all hc hw1 hk1 hd hS h2
  have hT2 := supply_keep hkeep k.lt
  rcases C22_no_leak_partial hc hw2 h3 hk2 f3 n3 with hbr | v3
  · exact .inr (.inl hbr)
  have v2' : (k.pool w1).r0 * (k.pool w1).r1 ≤ (k.pool w2).r0 * (k.pool w2).r1 := by
    rw [dir_product hd, dir_product hd] at v2; exact v2
  have hT2' : (k.pool w2).supply = (k.pool w1).supply := hT2
  have chain : (k.pool w).r0 * (k.pool w).r1 * (k.pool w3).supply ^ 2 ≤ (k.pool w3).r0 * (k.pool w3).r1 * (k.pool w).supply ^ 2 := by
    have hpos : 0 < (k.pool w1).supply ^ 2 := Nat.pow_pos (Nat.pos_of_ne_zero hT1)
    rw [hT2'] at v3
    refine Nat.le_of_mul_le_mul_right (c := (k.pool w1).supply ^ 2) ?_ hpos
    calc _ = (k.pool w).r0 * (k.pool w).r1 * (k.pool w1).supply ^ 2 * (k.pool w3).supply ^ 2 := by ring
      _ ≤ (k.pool w1).r0 * (k.pool w1).r1 * (k.pool w).supply ^ 2 * (k.pool w3).supply ^ 2 := Nat.mul_le_mul_right _ v1
      _ = (k.pool w1).r0 * (k.pool w1).r1 * ((k.pool w).supply ^ 2 * (k.pool w3).supply ^ 2) := by ring
      _ ≤ (k.pool w2).r0 * (k.pool w2).r1 * ((k.pool w).supply ^ 2 * (k.pool w3).supply ^ 2) := Nat.mul_le_mul_right _ v2'
      _ = (k.pool w2).r0 * (k.pool w2).r1 * (k.pool w3).supply ^ 2 * (k.pool w).supply ^ 2 := by ring
      _ ≤ (k.pool w3).r0 * (k.pool w3).r1 * (k.pool w1).supply ^ 2 * (k.pool w).supply ^ 2 := Nat.mul_le_mul_right _ v3
      _ = _ := by ring
  have hp : held w (.token t) k.a * held w j k.a ≤ held w3 (.token t) k.a * held w3 j k.a := by
    rw [dir_product hd, dir_product hd]; exact product_of_value chain hT hTT
  refine .inr (.inr ⟨?_, ?_⟩)
  · intro h0
    have := take_grows hp h0 hj
    omega
  · have e := take_price hp hj
    have : held w3 (.token t) k.a - held w (.token t) k.a = v - G := by omega
    rwa [this] at e

private theorem pro_rata {T m o d v q : Nat} (hm : m * o ≤ d * T) (hq : q * (T + m) ≤ (o + d + v) * m) :
    q * (T + m) ≤ d * (T + m) + v * m := by nlinarith

private theorem pro_rata' {T m a d b q : Nat} (hm : m * a ≤ d * T) (hb : b ≤ a + d) (hq : q * (T + m) ≤ (a + d - b) * m) :
    q * (T + m) + b * m ≤ d * (T + m) := by
  obtain ⟨e, he⟩ := Nat.exists_eq_add_of_le hb
  rw [he, Nat.add_sub_cancel_left] at hq
  nlinarith

/-- **C113.** Liquidity that is there for one trade only takes its share of that trade and nothing else. `F` deposits to a pair with `T` LP
tokens and gets `m`, in whatever ratio they deposit, `S` swaps `v` of the token `t` for `b`, and `F` withdraws. Then `F` has
gained at most the fraction `m/(T+m)` of `v`, and given at least the same fraction of `b`: no more than if `S` had made that
part of the trade with `F`, at the price that `S` got. -/
theorem C113_share_of_trade {c : Chain} (hc : c.Lawful) {w w1 w2 w3 : World} (hw : Reachable c w) {k : PairSite}
    (hk : k.Sound c w) {t : Addr} {j : AssetInfo} (hd : k.Dir (.token t) j) {assets : Asset × Asset} {tol : Option Nat}
    {funds : List Coin} {v m b : Nat} {adv1 adv2 adv3 : Adv} {gas1 gas2 gas3 : Nat} {F S : Addr} (hF : c.IsUser F)
    (hS : c.IsUser S) (hFS : F ≠ S) {bp ms : Option Nat} (hT : supplyAt w k.lt ≠ 0)
    (h1 : runTx c adv1 gas1 w F (.exec k.a (.provideLiquidity assets tol none) funds) = .ok w1)
    (hm : held w1 (.token k.lt) F = held w (.token k.lt) F + m)
    (h2 : runTx c adv2 gas2 w1 S (.exec t (.send k.a v (.swap bp ms none)) []) = .ok w2)
    (hb : held w2 j S = held w1 j S + b)
    (h3 : runTx c adv3 gas3 w2 F (.exec k.lt (.send k.a m .withdrawLiquidity) []) = .ok w3) :
    held w3 (.token t) F * (supplyAt w k.lt + m) ≤ held w (.token t) F * (supplyAt w k.lt + m) + v * m ∧
      held w3 j F * (supplyAt w k.lt + m) + b * m ≤ held w j F * (supplyAt w k.lt + m) := by
  obtain ⟨d0, d1, s, _, _, hk1, _, _, hsh, dep⟩ := deposit_tx hc hw hk hF h1
  have hw1 : Reachable c w1 := .step _ _ hw (.tx _ _ _ _ _ _ hF h1)
  have hw2 : Reachable c w2 := .step _ _ hw1 (.tx _ _ _ _ _ _ hS h2)
  obtain ⟨r, _, _, _, hk2, _, _, o2, hr, a2, u2⟩ := swap_tx hc hw1 hk1 hd hS (by simp) h2
  obtain ⟨_, _, _, _, hkeep, _, hmv⟩ := swap_all hc hw1 hk1 hd hS h2
  have hT2 := supply_keep hkeep k.lt
  obtain ⟨q0, q1, wd, _, _, b0, _, b1, _⟩ := C16_withdraw_tx hc hw2 hk2 hF h3
  have hFa : F ≠ k.a := (addr_facts hc hw hk.pair).2 F hF
  have hrest : ∀ i, held w2 i F = held w1 i F := by
    intro i
    have := hmv i F
    simpa [hFS, hFa] using this
  have hms : m = s := by have := dep.lp; simp only [Option.getD_none] at this; omega
  subst hms
  have hbr : b = r := by simp only [Option.getD_none] at u2; omega
  subst hbr
  obtain ⟨e0, e1⟩ := share_le hsh hT
  rw [hT2, dep.supply] at b0 b1
  have y1 := dep.pair0; have y2 := dep.pair1; have y3 := dep.user0; have y4 := dep.user1
  have y7 := wd.user0; have y8 := wd.user1
  have rt := hrest (.token t)
  have rj := hrest j
  have fin : ∀ {x y z d q N V : Nat}, y + d = x → z = y + q → q * N ≤ d * N + V → z * N ≤ x * N + V := by
    intro x y z d q N V p1 p2 p3; subst p1 p2; rw [Nat.add_mul, Nat.add_mul]; omega
  have fin' : ∀ {x y z d q N V : Nat}, y + d = x → z = y + q → q * N + V ≤ d * N → z * N + V ≤ x * N := by
    intro x y z d q N V p1 p2 p3; subst p1 p2; rw [Nat.add_mul, Nat.add_mul]; omega
  rcases hd with ⟨x0, x1⟩ | ⟨x0, x1⟩
  · rw [x0] at y1 y3 y7 b0 e0
    rw [x1] at y2 y4 y8 b1 e1
    rw [y2] at hr a2
    rw [rt] at y7; rw [rj] at y8
    rw [o2, y1] at b0; rw [a2] at b1
    exact ⟨fin y3 y7 (pro_rata e0 b0), fin' y4 y8 (pro_rata' e1 hr b1)⟩
  · rw [x0] at y2 y4 y8 b1 e1
    rw [x1] at y1 y3 y7 b0 e0
    rw [y1] at hr a2
    rw [rt] at y8; rw [rj] at y7
    rw [o2, y2] at b1; rw [a2] at b0
    exact ⟨fin y4 y8 (pro_rata e1 b1), fin' y3 y7 (pro_rata' e0 hr b0)⟩

private theorem deeper {o a o' a' x r s cm r' s' cm' : Nat} (h : Priced o a x r s cm) (h' : Priced o' a' x r' s' cm')
    (hoo : o ≤ o') (hd : (o' - o) * a ≤ (a' - a) * o) (haa : a ≤ a') : r ≤ r' + 1 ∧ (o + x ≤ 10 ^ 18 → r ≤ r') := by
  have e1 := C04_constant_product _ _ _ _ _ _ h
  have e2 := C04_constant_product _ _ _ _ _ _ h'
  have c1 := C03_commission_rate _ _ _ _ _ _ h
  have c2 := C03_commission_rate _ _ _ _ _ _ h'
  obtain ⟨d, rfl⟩ := Nat.exists_eq_add_of_le hoo
  obtain ⟨e, rfl⟩ := Nat.exists_eq_add_of_le haa
  have key : a * x / (o + x) ≤ (a + e) * x / (o + d + x) := by
    by_cases hx : o + x = 0
    · rw [hx, Nat.div_zero]; exact Nat.zero_le _
    rw [Nat.le_div_iff_mul_le (by omega)]
    have h3 := Nat.div_mul_le_self (a * x) (o + x)
    set g := a * x / (o + x)
    have hg : g * (o + x) ≤ a * x := h3
    refine Nat.le_of_mul_le_mul_right (c := o + x) ?_ (by omega)
    simp only [Nat.add_sub_cancel_left] at hd
    calc g * (o + d + x) * (o + x) = g * (o + x) * (o + d + x) := by ring
      _ ≤ a * x * (o + d + x) := Nat.mul_le_mul_right _ hg
      _ = x * (a * (o + x) + d * a) := by ring
      _ ≤ x * (a * (o + x) + e * o) := Nat.mul_le_mul_left _ (by omega)
      _ ≤ (a + e) * x * (o + x) := by nlinarith [Nat.zero_le (x * e * x)]
  refine ⟨by omega, fun h18 => ?_⟩
  have := C04_exact _ _ _ _ _ _ h h18
  omega

/-- **C113.** Whoever adds liquidity without being short of the asset that is asked for takes nothing from the next trader: a swap after
the deposit pays at least what it would have paid before, less one unit; no less at all if it would have left at most `10^18` units of the
offered token in the pair. -/
theorem C113_deposit_helps {c : Chain} (hc : c.Lawful) {w w1 w2 w' : World} (hw : Reachable c w) {k : PairSite}
    (hk : k.Sound c w) {t : Addr} {j : AssetInfo} (hd : k.Dir (.token t) j) {assets : Asset × Asset} {tol : Option Nat}
    {rcv : Option Str} {funds : List Coin} {v b b' : Nat} {adv1 adv2 adv : Adv} {gas1 gas2 gas : Nat} {F S : Addr} (hF : c.IsUser F)
    (hS : c.IsUser S) {bp ms bp' ms' : Option Nat}
    (h : runTx c adv gas w S (.exec t (.send k.a v (.swap bp ms none)) []) = .ok w')
    (hb : held w' j S = held w j S + b)
    (h1 : runTx c adv1 gas1 w F (.exec k.a (.provideLiquidity assets tol rcv) funds) = .ok w1)
    (h2 : runTx c adv2 gas2 w1 S (.exec t (.send k.a v (.swap bp' ms' none)) []) = .ok w2)
    (hb' : held w2 j S = held w1 j S + b')
    (hr : (held w1 (.token t) k.a - held w (.token t) k.a) * held w j k.a ≤
      (held w1 j k.a - held w j k.a) * held w (.token t) k.a) :
    b ≤ b' + 1 ∧ (held w' (.token t) k.a ≤ 10 ^ 18 → b ≤ b') := by
  obtain ⟨d0, d1, s, _, _, hk1, _, _, _, dep⟩ := deposit_tx hc hw hk hF h1
  have hw1 : Reachable c w1 := .step _ _ hw (.tx _ _ _ _ _ _ hF h1)
  obtain ⟨r, _, _, hp, _, _, _, o1, _, _, u⟩ := swap_tx hc hw hk hd hS (by simp) h
  obtain ⟨r', _, _, hp', _, _, _, _, _, _, u'⟩ := swap_tx hc hw1 hk1 hd hS (by simp) h2
  simp only [Option.getD_none] at u u'
  have hle : held w (.token t) k.a ≤ held w1 (.token t) k.a ∧ held w j k.a ≤ held w1 j k.a := by
    have := dep.pair0; have := dep.pair1
    rcases hd with ⟨x0, x1⟩ | ⟨x0, x1⟩ <;> rw [← x0, ← x1] <;> omega
  have := deeper hp hp' hle.1 hr hle.2
  rw [o1]
  have e1 : r = b := by omega
  have e2 : r' = b' := by omega
  rw [← e1, ← e2]
  exact this

namespace Demo

/-- `user2` gets 5000 A; `user` lets the pair take A and B for deposits. -/
def lounge : World := worldOf (runs [.exec tA (.transfer user2 5000) []] allowed)
theorem lounge_run : runs [.exec tA (.transfer user2 5000) []] allowed = .ok lounge := worldOf_eq (by decide +kernel)
theorem lounge_reachable : Reachable chain lounge := allowed_reachable.later (later_runs lounge_run)
theorem lounge_sound : siteAB.Sound chain lounge :=
  sound_of (k := siteAB) (x := tA) (y := tB) (by decide +kernel) ⟨rfl, rfl, rfl⟩ rfl rfl (by decide +kernel)
    (by decide +kernel)

def visit : CosmosMsg := .exec pAB (.provideLiquidity (⟨.token tA, 1000⟩, ⟨.token tB, 2000⟩) none none) []
def guested : World := worldOf (runTx chain idle 20 lounge user visit)
theorem guested_run : runTx chain idle 20 lounge user visit = .ok guested := worldOf_eq (by decide +kernel)
def buy : CosmosMsg := .exec tA (.send pAB 5000 (.swap none none none)) []
def bought : World := worldOf (runTx chain idle 20 guested user2 buy)
theorem bought_run : runTx chain idle 20 guested user2 buy = .ok bought := worldOf_eq (by decide +kernel)
def quit : CosmosMsg := .exec lpAB (.send pAB 1414 .withdrawLiquidity) []
def quitted : World := worldOf (runTx chain idle 20 bought user quit)
theorem quitted_run : runTx chain idle 20 bought user quit = .ok quitted := worldOf_eq (by decide +kernel)
def direct : World := worldOf (runTx chain idle 20 lounge user2 buy)
theorem direct_run : runTx chain idle 20 lounge user2 buy = .ok direct := worldOf_eq (by decide +kernel)

example := C113_share_of_trade lawful lounge_reachable lounge_sound (t := tA) (j := .token tB) (.inl ⟨rfl, rfl⟩) isUser_user
  isUser_user2 (by decide) (by decide +kernel) guested_run (m := 1414) (by decide +kernel) bought_run (b := 6855)
  (by decide +kernel) quitted_run
example := C113_deposit_helps lawful lounge_reachable lounge_sound (t := tA) (j := .token tB) (.inl ⟨rfl, rfl⟩) isUser_user
  isUser_user2 direct_run (b := 6647) (by decide +kernel) guested_run bought_run (b' := 6855) (by decide +kernel) (by decide +kernel)
/-- `user` deposits, swaps and withdraws. -/
def stay : List CosmosMsg := [visit, buy, quit]
def stayed : World := worldOf (runs stay lounge)
theorem stayed_run : runs stay lounge = .ok stayed := worldOf_eq (by decide +kernel)
theorem stay_calls : siteAB.calls chain (traces stay lounge) = [(⟨10000, 20000, 14142⟩, .deposit 1000 2000),
    (⟨11000, 22000, 15556⟩, .swap0 5000), (⟨16000, 15145, 15556⟩, .withdraw 1414)] := by decide +kernel
example := C113_average_price lawful lounge_reachable (hist_runs stayed_run) lounge_sound (i := .token tA) (j := .token tB)
  (b := 6231) (by rw [stay_calls]; simp [First]) (by rw [stay_calls]; simp [Leak, Slip]) (by decide +kernel)
  (by decide +kernel) (.inl ⟨rfl, rfl⟩) (by decide +kernel)

/-- `user` swaps 1000 A and deposits, `user2` swaps 5000 A, `user` withdraws and swaps back the B they have more than before, and
is 520 A richer. -/
def ambush : List CosmosMsg := [.exec tA (.send pAB 1000 (.swap none none none)) [], visit]
def ambushed : World := worldOf (runs ambush lounge)
theorem ambushed_run : runs ambush lounge = .ok ambushed := worldOf_eq (by decide +kernel)
def prey : World := worldOf (runTx chain idle 20 ambushed user2 buy)
theorem prey_run : runTx chain idle 20 ambushed user2 buy = .ok prey := worldOf_eq (by decide +kernel)
def flight : List CosmosMsg := [.exec lpAB (.send pAB 1285 .withdrawLiquidity) [], .exec tB (.send pAB 1001 (.swap none none none)) []]
def fled : World := worldOf (runs flight prey)
theorem fled_run : runs flight prey = .ok fled := worldOf_eq (by decide +kernel)
theorem ambush_calls : siteAB.calls chain (traces ambush lounge) = [(⟨10000, 20000, 14142⟩, .swap0 1000),
    (⟨11000, 18187, 14142⟩, .deposit 1000 2000)] := by decide +kernel
theorem flight_calls : siteAB.calls chain (traces flight prey) = [(⟨17000, 14267, 15427⟩, .withdraw 1285),
    (⟨15584, 13079, 14142⟩, .swap1 1001)] := by decide +kernel
example := C113_any_attack lawful lounge_reachable lounge_sound (hist_runs ambushed_run) (hist_runs fled_run)
  (by rw [ambush_calls]; simp [First]) (by rw [ambush_calls]; simp [Leak, Slip]) (by rw [flight_calls]; simp [First])
  (by rw [flight_calls]; simp [Leak, Slip]) (t := tA) (j := .token tB) (.inl ⟨rfl, rfl⟩) (b := 5920) (G := 520) isUser_user2
  (dst := none) (by simp) prey_run (by decide +kernel) (.inl (by decide +kernel)) (by decide +kernel) (by decide +kernel)
  (by decide +kernel) (by decide +kernel) (by decide +kernel)
example : held fled (.token tA) user = held lounge (.token tA) user + 520 ∧
    held fled (.token tB) user = held lounge (.token tB) user := by decide +kernel

end Demo
end Halo
