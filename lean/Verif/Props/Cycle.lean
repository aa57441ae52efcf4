import Verif.Props.Route
import Verif.Props.Pool
/-! # Routes and cycles never beat the spot prices (C76) -/

namespace Halo
open _root_.Halo.Spec

/-- A swap pays at most the offer at the ratio of the reserves. -/
theorem computeSwap_spot {o a x r s cm : Nat} (h : Pair.computeSwap o a x = .ok (r, s, cm)) : r * o ≤ x * a := by
  unfold Pair.computeSwap at h
  simp only [Uint256.ofU128_eq, commissionRate_eq, bind_eq_ok, Uint256.mul_eq_ok,
    Dec256.fromUint256_eq_ok, Uint256.add_eq_ok, Dec256.fromRatio_eq_ok, Dec256.sub_eq_ok,
    Uint256.mulDec_eq_ok, Uint256.sub_eq_ok, Uint256.one, Except.ok.injEq, pure_eq_ok, Prod.mk.injEq] at h
  obtain ⟨_, rfl, _, ⟨_, rfl⟩, _, ⟨_, rfl⟩, _, ⟨_, rfl⟩, _, ⟨h1, h2, rfl⟩, _, ⟨h3, rfl⟩, _, ⟨h4, rfl⟩,
      _, ⟨h5, h6, rfl⟩, _, ⟨h7, rfl⟩, _, ⟨h8, rfl⟩, _, ⟨h9, rfl⟩, _, ⟨h10, rfl⟩, r', hr, s', hs, c', hc',
      rfl, rfl, rfl⟩ := h
  have hid : x * (a * DF / o) / DF < B256 := lt_of_le_of_lt (Nat.div_le_self _ _) h7
  rw [Uint256.toU128_eq_ok (lt_of_le_of_lt ((Nat.sub_le _ _).trans h8) hid)] at hr
  obtain ⟨_, rfl⟩ := hr
  have e1 : x * (a * DF / o) / DF * DF ≤ x * (a * DF / o) := Nat.div_mul_le_self _ _
  have e2 : a * DF / o * o ≤ a * DF := Nat.div_mul_le_self _ _
  refine (Nat.mul_le_mul_right _ ((Nat.sub_le _ _).trans h8)).trans ?_
  have hDF : 0 < DF := by norm_num [DF]
  refine Nat.le_of_mul_le_mul_right ?_ hDF
  calc x * (a * DF / o) / DF * o * DF = x * (a * DF / o) / DF * DF * o := by ring
    _ ≤ x * (a * DF / o) * o := Nat.mul_le_mul_right _ e1
    _ = x * (a * DF / o * o) := by ring
    _ ≤ x * (a * DF) := Nat.mul_le_mul_left _ e2
    _ = x * a * DF := by ring

/-- The product of what the pairs of a route hold of the assets they are offered, and of those they are asked for. -/
def offered (w : World) (ops : List SwapOp) (ks : List PairSite) : Nat :=
  (List.zipWith (fun op k => held w op.offer k.a) ops ks).prod
def asked (w : World) (ops : List SwapOp) (ks : List PairSite) : Nat :=
  (List.zipWith (fun op k => held w op.ask k.a) ops ks).prod

theorem Quote.spot {v : World} : ∀ {ops : List SwapOp} {ks : List PairSite} {x y : Nat}, Quote v ops ks x y →
    y * offered v ops ks ≤ x * asked v ops ks := by
  intro ops
  induction ops with
  | nil =>
    intro ks x y h
    cases ks with
    | nil => cases h; exact le_refl _
    | cons => cases h
  | cons op ops ih =>
    intro ks x y h
    cases ks with
    | nil => cases h
    | cons k ks =>
      obtain ⟨r, s, cm, h1, h2⟩ := h
      have := ih h2
      have h1 := computeSwap_spot h1
      simp only [offered, asked, List.zipWith_cons_cons, List.prod_cons] at this ⊢
      calc _ = held v op.offer k.a * (y * (List.zipWith (fun op k => held v op.offer k.a) ops ks).prod) := by ring
        _ ≤ held v op.offer k.a * (r * (List.zipWith (fun op k => held v op.ask k.a) ops ks).prod) := Nat.mul_le_mul_left _ this
        _ = r * held v op.offer k.a * (List.zipWith (fun op k => held v op.ask k.a) ops ks).prod := by ring
        _ ≤ x * held v op.ask k.a * (List.zipWith (fun op k => held v op.ask k.a) ops ks).prod := Nat.mul_le_mul_right _ h1
        _ = _ := by ring

theorem offered_pos {w : World} {ops : List SwapOp} {ks : List PairSite}
    (h : List.Forall₂ (fun (op : SwapOp) (k : PairSite) => k.Dir op.offer op.ask) ops ks)
    (hne : ∀ k ∈ ks, held w k.i0 k.a ≠ 0 ∧ held w k.i1 k.a ≠ 0) : 0 < offered w ops ks := by
  induction h with
  | nil => exact Nat.one_pos
  | cons hd _ ih =>
    simp only [offered, List.zipWith_cons_cons, List.prod_cons] at ih ⊢
    refine Nat.mul_pos ?_ (ih fun k hk => hne k (.tail _ hk))
    rcases hd with ⟨e, _⟩ | ⟨e, _⟩
    · rw [← e]; exact Nat.pos_of_ne_zero (hne _ (.head _)).1
    · rw [← e]; exact Nat.pos_of_ne_zero (hne _ (.head _)).2

theorem route_effect {c : Chain} (hc : c.Lawful) {w w' : World} (hw : Reachable c w) {S rou f t : Addr}
    {adm fadm : Option Addr} {s : Router.State} {fs : Factory.State} {ops : List SwapOp} {ks : List PairSite}
    {first last : SwapOp} {dst : Option Str} (h : OnRoute c w S rou f t adm fadm s fs ops ks first last dst)
    {mn : Option Nat} {x : Nat} {adv : Adv} {gas : Nat}
    (hrun : runTx c adv gas w S (.exec t (.send rou x (.executeSwapOperations ops mn dst)) []) = .ok w') :
    ∃ y, Quote w ops ks x y ∧ x ≤ held w (.token t) S ∧ ∀ i, held w' i (dst.getD S) =
      held w i (dst.getD S) - (if dst.getD S = S ∧ i = .token t then x else 0) + (if i = last.ask then y else 0) := by
  obtain ⟨_, v, n, m, y, hx, hr, hl, _⟩ := h.parts hc hw hrun
  obtain ⟨hst, hks⟩ := h.start hc hw hx
  have hSr := (addr_facts hc hw h.router).2 S h.user
  obtain ⟨_, e2, e3, _⟩ := hst.effect (addr_facts hc hw h.router).1 h.names h.tail (hl.congr hks).quote hr
  refine ⟨y, hl.quote, hx.le, fun i => ?_⟩
  have e : held v i (dst.getD S) = held w i (dst.getD S) - if dst.getD S = S ∧ i = .token t then x else 0 := by
    by_cases hi : i = .token t
    · subst hi
      by_cases hS : dst.getD S = S
      · rw [hS, if_pos ⟨rfl, rfl⟩]; exact (hx.bal hSr).1
      · rw [if_neg (fun h => hS h.1), hx.outside hS h.rcv_rou, Nat.sub_zero]
    · rw [if_neg (fun h => hi h.2), hx.other i hi, Nat.sub_zero]
  rw [← e]
  by_cases hi : i = last.ask
  · rw [if_pos hi, hi, e2]
  · rw [if_neg hi, e3 i hi, Nat.add_zero]

/-- **C76.** A route pays at most what the ratios of the reserves of its pairs promise: if the receiver gets `y` for `x`, then `y`
times the product of the reserves offered to is at most `x` times the product of the reserves asked for. -/
theorem C76_route_below_spot {c : Chain} (hc : c.Lawful) {w w' : World} (hw : Reachable c w) {S rou f t : Addr}
    {adm fadm : Option Addr} {s : Router.State} {fs : Factory.State} {ops : List SwapOp} {ks : List PairSite}
    {first last : SwapOp} {dst : Option Str} (h : OnRoute c w S rou f t adm fadm s fs ops ks first last dst)
    {mn : Option Nat} {x : Nat} {adv : Adv} {gas : Nat}
    (hrun : runTx c adv gas w S (.exec t (.send rou x (.executeSwapOperations ops mn dst)) []) = .ok w') :
    ∃ y, y * (List.zipWith (fun op k => held w op.offer k.a) ops ks).prod ≤
        x * (List.zipWith (fun op k => held w op.ask k.a) ops ks).prod ∧
      ∀ i, held w' i (dst.getD S) =
        held w i (dst.getD S) - (if dst.getD S = S ∧ i = .token t then x else 0) + (if i = last.ask then y else 0) := by
  obtain ⟨y, hq, _, hy⟩ := route_effect hc hw h hrun
  exact ⟨y, hq.spot, hy⟩

/-- **C76.** Nobody gains by going round in a circle, unless the ratios of the reserves already multiply to more than one: a route
that ends in the token it began with and pays the sender leaves them with at most what they had. -/
theorem C76_no_free_cycle {c : Chain} (hc : c.Lawful) {w w' : World} (hw : Reachable c w) {S rou f t : Addr}
    {adm fadm : Option Addr} {s : Router.State} {fs : Factory.State} {ops : List SwapOp} {ks : List PairSite}
    {first last : SwapOp} {dst : Option Str} (h : OnRoute c w S rou f t adm fadm s fs ops ks first last dst)
    (hback : last.ask = .token t) (hS : dst.getD S = S)
    (hp : (List.zipWith (fun op k => held w op.ask k.a) ops ks).prod ≤
      (List.zipWith (fun op k => held w op.offer k.a) ops ks).prod)
    (hne : ∀ k ∈ ks, held w k.i0 k.a ≠ 0 ∧ held w k.i1 k.a ≠ 0)
    {mn : Option Nat} {x : Nat} {adv : Adv} {gas : Nat}
    (hrun : runTx c adv gas w S (.exec t (.send rou x (.executeSwapOperations ops mn dst)) []) = .ok w') :
    ∀ i, held w' i S ≤ held w i S := by
  obtain ⟨y, hq, hle, hy⟩ := route_effect hc hw h hrun
  have hq := hq.spot
  have hpos := offered_pos (h.pairs.imp fun _ _ hh => hh.2.1) hne
  have hyx : y ≤ x := Nat.le_of_mul_le_mul_right (hq.trans (Nat.mul_le_mul_left _ hp)) hpos
  intro i
  have := hy i
  rw [hS] at this
  rw [this, hback]
  by_cases hi : i = .token t
  · subst hi
    simp only [and_self, if_true]
    omega
  · simp only [hi, and_false, if_false]; omega

/-- The value of two reserves at given prices is least where both count the same. -/
theorem value_least {p q a b a' b' : Nat} (he : p * a = q * b) (hp : a * b ≤ a' * b') : p * a + q * b ≤ p * a' + q * b' := by
  have h1 : (p * a + q * b) ^ 2 ≤ (p * a' + q * b') ^ 2 := by
    have h2 : p * q * (a * b) ≤ p * q * (a' * b') := Nat.mul_le_mul_left _ hp
    have h3 : (p * a + q * b) ^ 2 = 4 * (p * q * (a * b)) := by
      have : p * q * (a * b) = (p * a) * (q * b) := by ring
      rw [this, ← he]; ring
    have h4 : 4 * (p * q * (a' * b')) ≤ (p * a' + q * b') ^ 2 := by
      have e : p * q * (a' * b') = (p * a') * (q * b') := by ring
      rw [e]
      generalize p * a' = u
      generalize q * b' = v
      nlinarith [sq_nonneg ((u : ℤ) - v), Nat.le_total u v, four_mul_le_sq_add u v]
    omega
  exact (Nat.pow_le_pow_iff_left (by norm_num)).mp h1

/-- **C76.** Whole markets: let prices be such that at the beginning the two reserves of each of some pairs are worth the same. Over any
history in which these pairs were asked only for swaps (not of dust), directly or through routes, by anyone, in any number and
order, none of the pairs lost value at these prices. So traders together gained nothing from them. -/
theorem C76_market {c : Chain} (hc : c.Lawful) {w w' : World} (hw : Reachable c w) {tr : List (World × Frame)}
    (hl : Hist c w tr w') {ks : List PairSite} (hk : ∀ k ∈ ks, k.Sound c w)
    (hs : ∀ k ∈ ks, ∀ e ∈ k.calls c tr, IsSwap e ∧ ¬ Dust e) (price : AssetInfo → Nat)
    (hp : ∀ k ∈ ks, price k.i0 * held w k.i0 k.a = price k.i1 * held w k.i1 k.a) :
    (∃ k ∈ ks, k.Broken w') ∨
      (ks.map fun k => price k.i0 * held w k.i0 k.a + price k.i1 * held w k.i1 k.a).sum ≤
      (ks.map fun k => price k.i0 * held w' k.i0 k.a + price k.i1 * held w' k.i1 k.a).sum := by
  by_cases hb : ∃ k ∈ ks, k.Broken w'
  · exact .inl hb
  · refine .inr (List.sum_le_sum fun k h => ?_)
    rcases C01_swaps_keep_product_partial hc hw hl (hk k h) (fun e he => (hs k h e he).1) (fun e he => (hs k h e he).2) with g | g
    · exact absurd ⟨k, h, g⟩ hb
    · exact value_least (hp k h) g

/-! ## The hypotheses can be met -/

namespace Demo

/-- A third pair, of A and C, with a price that fits the other two: one A is worth two B or four C. -/
def pAC : Addr := chain.addrOf 9
def lpAC : Addr := chain.addrOf 10
def siteAC : PairSite where
  a := pAC
  lt := lpAC
  s := { assetInfos := (.token tA, .token tC), contractAddr := pAC, liquidityToken := lpAC, assetDecimals := (6, 6),
         requirements := ⟨[user], 10, 10⟩ }
  i0 := .token tA
  i1 := .token tC
def triangleMsgs : List CosmosMsg := [createMsg tA tC, approve tA pAC, approve tC pAC,
  .exec pAC (.provideLiquidity (⟨.token tA, 5000⟩, ⟨.token tC, 20000⟩) none none) []]
def triangle : World := worldOf (runs triangleMsgs deployed)
theorem triangle_run : runs triangleMsgs deployed = .ok triangle := worldOf_eq (by decide +kernel)
theorem triangle_reachable : Reachable chain triangle := deployed_reachable.later (later_runs triangle_run)

theorem triangle_sound : ∀ k ∈ [siteAB, siteBC, siteAC], k.Sound chain triangle := by
  intro k hk
  simp only [List.mem_cons, List.not_mem_nil, or_false] at hk
  rcases hk with rfl | rfl | rfl
  · exact sound_of (k := siteAB) (x := tA) (y := tB) (by decide +kernel) ⟨rfl, rfl, rfl⟩ rfl rfl (by decide +kernel)
      (by decide +kernel)
  · exact sound_of (k := siteBC) (x := tB) (y := tC) (by decide +kernel) ⟨rfl, rfl, rfl⟩ rfl rfl (by decide +kernel)
      (by decide +kernel)
  · exact sound_of (k := siteAC) (x := tA) (y := tC) (by decide +kernel) ⟨rfl, rfl, rfl⟩ rfl rfl (by decide +kernel)
      (by decide +kernel)

/-- From A over B and C back to A. -/
def round : List SwapOp := [⟨.token tA, .token tB⟩, ⟨.token tB, .token tC⟩, ⟨.token tC, .token tA⟩]

theorem look_triangle {i j : AssetInfo} {p : Addr} {info : PairInfo}
    (h : Factory.queryPair chain.api (facState triangle fac) (i, j) = .ok info)
    (e : (val (Factory.queryPair chain.api (facState triangle fac) (i, j))).map PairInfo.contractAddr = some p) :
    info.contractAddr = p := by
  rw [h] at e; exact Option.some.inj e

theorem round_route : OnRoute chain triangle user rou fac tA none none ⟨fac⟩ (facState triangle fac) round
    [siteAB, siteBC, siteAC] ⟨.token tA, .token tB⟩ ⟨.token tC, .token tA⟩ none :=
  ⟨isUser_user, rouAt_eq (p := (none, ⟨fac⟩)) (by decide +kernel), rfl, facState_eq (a := fac) (by decide +kernel),
    .cons ⟨triangle_sound _ (by simp), .inl ⟨rfl, rfl⟩, fun _ h => look_triangle h (by decide +kernel)⟩
      (.cons ⟨triangle_sound _ (by simp), .inl ⟨rfl, rfl⟩, fun _ h => look_triangle h (by decide +kernel)⟩
        (.cons ⟨triangle_sound _ (by simp), .inr ⟨rfl, rfl⟩, fun _ h => look_triangle h (by decide +kernel)⟩ .nil)),
    by decide +kernel, by decide +kernel, rfl, rfl, rfl, by decide +kernel, by decide +kernel, by decide +kernel⟩

def roundMsg : CosmosMsg := .exec tA (.send rou 1000 (.executeSwapOperations round none none)) []
def rounded : World := worldOf (runs [roundMsg] triangle)
theorem rounded_run : runs [roundMsg] triangle = .ok rounded := worldOf_eq (by decide +kernel)
theorem rounded_tx : runTx chain idle 20 triangle user roundMsg = .ok rounded := by
  have h := rounded_run
  simp only [runs, bind_eq_ok] at h
  obtain ⟨_, h, e⟩ := h
  cases e; exact h

/-- The sender ends up with less. -/
example : (∀ i, held rounded i user ≤ held triangle i user) ∧ held rounded (.token tA) user < held triangle (.token tA) user :=
  ⟨C76_no_free_cycle lawful triangle_reachable round_route rfl rfl (by decide +kernel) (by decide +kernel) rounded_tx,
    by decide +kernel⟩

example := C76_route_below_spot lawful triangle_reachable round_route rounded_tx

/-- A counts 4, B counts 2 and everything else counts 1. -/
def worth (i : AssetInfo) : Nat := if i = .token tA then 4 else if i = .token tB then 2 else 1

theorem round_calls : siteAB.calls chain (traces [roundMsg] triangle) = [(⟨10000, 20000, 14142⟩, .swap0 1000)] ∧
    siteBC.calls chain (traces [roundMsg] triangle) = [(⟨10000, 20000, 14142⟩, .swap0 1813)] ∧
    siteAC.calls chain (traces [roundMsg] triangle) = [(⟨5000, 20000, 10000⟩, .swap1 3060)] := by decide +kernel

example := C76_market lawful triangle_reachable (hist_runs rounded_run) triangle_sound
  (by intro k hk
      simp only [List.mem_cons, List.not_mem_nil, or_false] at hk
      rcases hk with rfl | rfl | rfl
      · rw [round_calls.1]; simp [IsSwap, Dust]
      · rw [round_calls.2.1]; simp [IsSwap, Dust]
      · rw [round_calls.2.2]; simp [IsSwap, Dust]) worth (by decide +kernel)

end Demo
end Halo
