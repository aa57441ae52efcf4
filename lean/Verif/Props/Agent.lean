import Verif.Props.Cycle
/-! # The router is a faithful agent (C77) -/

namespace Halo
open _root_.Halo.Spec

/-- What a priced swap pays, whatever the sizes. -/
theorem computeSwap_form {o a x r s cm : Nat} (h : Pair.computeSwap o a x = .ok (r, s, cm)) :
    o ≠ 0 ∧ grossOf o a x ≤ idealOf o a x ∧ r = grossOf o a x - 3 * grossOf o a x / 1000 := by
  unfold Pair.computeSwap at h
  simp only [Uint256.ofU128_eq, commissionRate_eq, bind_eq_ok, Uint256.mul_eq_ok,
    Dec256.fromUint256_eq_ok, Uint256.add_eq_ok, Dec256.fromRatio_eq_ok, Dec256.sub_eq_ok,
    Uint256.mulDec_eq_ok, Uint256.sub_eq_ok, Uint256.one, Except.ok.injEq, pure_eq_ok, Prod.mk.injEq] at h
  obtain ⟨_, rfl, _, ⟨_, rfl⟩, _, ⟨_, rfl⟩, _, ⟨_, rfl⟩, _, ⟨h1, h2, rfl⟩, _, ⟨h3, rfl⟩, _, ⟨h4, rfl⟩,
      _, ⟨h5, h6, rfl⟩, _, ⟨h7, rfl⟩, _, ⟨h8, rfl⟩, _, ⟨h9, rfl⟩, _, ⟨h10, rfl⟩, r', hr, s', hs, c', hc',
      rfl, rfl, rfl⟩ := h
  rw [one_mul] at *
  change grossOf o a x ≤ idealOf o a x at h8
  change Uint256.toU128 (grossOf o a x - grossOf o a x * 3000000000000000 / DF) = _ at hr
  have hid : idealOf o a x < B256 := lt_of_le_of_lt (Nat.div_le_self _ _) h7
  rw [comm_eq] at hr
  rw [Uint256.toU128_eq_ok (by omega)] at hr
  exact ⟨h5, h8, hr.2⟩

/-- More in, more out. -/
theorem computeSwap_mono {o a x x' r r' s s' cm cm' : Nat} (h : Pair.computeSwap o a x = .ok (r, s, cm))
    (h' : Pair.computeSwap o a x' = .ok (r', s', cm')) (hx : x ≤ x') : r ≤ r' := by
  obtain ⟨ho, _, rfl⟩ := computeSwap_form h
  obtain ⟨_, _, rfl⟩ := computeSwap_form h'
  have := gross_mono (a := a) ho hx
  omega

/-- Selling back at most what a swap paid yields at most what was offered. -/
theorem computeSwap_back {o a x y y' z s s' cm cm' : Nat} (h : Pair.computeSwap o a x = .ok (y, s, cm))
    (h' : Pair.computeSwap (a - y) (o + x) y' = .ok (z, s', cm')) (hy : y' ≤ y) : z ≤ x := by
  obtain ⟨ho, hi, rfl⟩ := computeSwap_form h
  obtain ⟨ho', _, rfl⟩ := computeSwap_form h'
  have h1 := round_trip ho hi ho'
  have h2 := gross_mono (a := o + x) ho' hy
  omega

theorem Quote.mono {v : World} : ∀ {ops : List SwapOp} {ks : List PairSite} {x x' y y' : Nat}, Quote v ops ks x y →
    Quote v ops ks x' y' → x ≤ x' → y ≤ y' := by
  intro ops
  induction ops with
  | nil =>
    intro ks x x' y y' h h' hx
    cases ks with
    | nil => cases h; cases h'; exact hx
    | cons => cases h
  | cons op ops ih =>
    intro ks x x' y y' h h' hx
    cases ks with
    | nil => cases h
    | cons k ks =>
      obtain ⟨r, s, cm, h1, h2⟩ := h
      obtain ⟨r', s', cm', h1', h2'⟩ := h'
      exact ih h2 h2' (computeSwap_mono h1 h1' hx)

theorem Quote.inj {v : World} {ops : List SwapOp} {ks : List PairSite} {x y y' : Nat} (h : Quote v ops ks x y)
    (h' : Quote v ops ks x y') : y = y' :=
  Nat.le_antisymm (h.mono h' (Nat.le_refl _)) (h'.mono h (Nat.le_refl _))

theorem Quote.snoc {v : World} {op : SwapOp} {k : PairSite} : ∀ {ops : List SwapOp} {ks : List PairSite} {x y : Nat},
    ops.length = ks.length → Quote v (ops ++ [op]) (ks ++ [k]) x y → ∃ m, Quote v ops ks x m ∧ Quote v [op] [k] m y := by
  intro ops
  induction ops with
  | nil =>
    intro ks x y hl h
    cases ks with
    | nil => exact ⟨x, rfl, h⟩
    | cons => cases hl
  | cons op ops ih =>
    intro ks x y hl h
    cases ks with
    | nil => cases hl
    | cons k ks =>
      obtain ⟨r, s, cm, h1, h2⟩ := h
      obtain ⟨m, h3, h4⟩ := ih (by simpa using hl) h2
      exact ⟨m, ⟨r, s, cm, h1, h3⟩, h4⟩

/-- What a route over different pairs does to what the pairs hold. -/
def Shifted (v v' : World) : List SwapOp → List PairSite → Nat → Nat → Prop
  | [], [], x, y => x = y
  | op :: ops, k :: ks, x, y => ∃ r s cm, Pair.computeSwap (held v op.offer k.a) (held v op.ask k.a) x = .ok (r, s, cm) ∧
      held v' op.offer k.a = held v op.offer k.a + x ∧ held v' op.ask k.a = held v op.ask k.a - r ∧
      (∀ i, i ≠ op.offer → i ≠ op.ask → held v' i k.a = held v i k.a) ∧ Shifted v v' ops ks r y
  | _, _, _, _ => False

theorem Shifted.congr {v v' u u' : World} : ∀ {ops : List SwapOp} {ks : List PairSite} {x y : Nat}, Shifted v v' ops ks x y →
    (∀ k ∈ ks, ∀ i, held u i k.a = held v i k.a) → (∀ k ∈ ks, ∀ i, held u' i k.a = held v' i k.a) →
    Shifted u u' ops ks x y := by
  intro ops
  induction ops with
  | nil => intro ks x y h _ _; cases ks with | nil => exact h | cons => cases h
  | cons op ops ih =>
    intro ks x y h hk hk'
    cases ks with
    | nil => cases h
    | cons k ks =>
      obtain ⟨r, s, cm, h1, h2, h3, h4, h5⟩ := h
      have e := hk k (.head _)
      have e' := hk' k (.head _)
      exact ⟨r, s, cm, by rw [e, e]; exact h1, by rw [e, e']; exact h2, by rw [e, e']; exact h3,
        fun i hi hj => by rw [e, e']; exact h4 i hi hj, ih h5 (fun k hk1 => hk k (.tail _ hk1)) fun k hk1 => hk' k (.tail _ hk1)⟩

theorem Shifted.quote {v v' : World} : ∀ {ops : List SwapOp} {ks : List PairSite} {x y : Nat}, Shifted v v' ops ks x y →
    Quote v ops ks x y := by
  intro ops
  induction ops with
  | nil => intro ks x y h; cases ks with | nil => exact h | cons => cases h
  | cons op ops ih =>
    intro ks x y h
    cases ks with
    | nil => cases h
    | cons k ks =>
      obtain ⟨r, s, cm, h1, _, _, _, h5⟩ := h
      exact ⟨r, s, cm, h1, ih h5⟩

/-- The pairs of a route end up the same however it was performed. -/
theorem Shifted.same {v v1 v2 : World} : ∀ {ops : List SwapOp} {ks : List PairSite} {x y1 y2 : Nat}, Shifted v v1 ops ks x y1 →
    Shifted v v2 ops ks x y2 → y1 = y2 ∧ ∀ k ∈ ks, ∀ i, held v1 i k.a = held v2 i k.a := by
  intro ops
  induction ops with
  | nil =>
    intro ks x y1 y2 h h'
    cases ks with
    | nil => cases h; cases h'; simp
    | cons => cases h
  | cons op ops ih =>
    intro ks x y1 y2 h h'
    cases ks with
    | nil => cases h
    | cons k ks =>
      obtain ⟨r, s, cm, h1, h2, h3, h4, h5⟩ := h
      obtain ⟨r', s', cm', h1', h2', h3', h4', h5'⟩ := h'
      rw [h1] at h1'
      cases h1'
      obtain ⟨e, hk⟩ := ih h5 h5'
      refine ⟨e, fun k' hk' i => ?_⟩
      rcases List.mem_cons.mp hk' with rfl | hk'
      · by_cases i1 : i = op.offer
        · rw [i1, h2, h2']
        · by_cases i2 : i = op.ask
          · rw [i2, h3, h3']
          · rw [h4 i i1 i2, h4' i i1 i2]
      · exact hk k' hk' i

/-- The same hops the other way round, in reverse order. -/
def backward (ops : List SwapOp) : List SwapOp := (ops.map fun op => ⟨op.ask, op.offer⟩).reverse

theorem Shifted.back {v v' : World} : ∀ {ops : List SwapOp} {ks : List PairSite} {x y y' z : Nat}, Shifted v v' ops ks x y →
    Quote v' (backward ops) ks.reverse y' z → y' ≤ y → z ≤ x := by
  intro ops
  induction ops with
  | nil =>
    intro ks x y y' z h h' hy
    cases ks with
    | nil => cases h; cases h'; exact hy
    | cons => cases h
  | cons op ops ih =>
    intro ks x y y' z h h' hy
    cases ks with
    | nil => cases h
    | cons k ks =>
      obtain ⟨r, s, cm, h1, h2, h3, h4, h5⟩ := h
      have hlen : ∀ {ops : List SwapOp} {ks : List PairSite} {x y : Nat}, Shifted v v' ops ks x y → ops.length = ks.length := by
        intro ops
        induction ops with
        | nil => intro ks x y h; cases ks with | nil => rfl | cons => cases h
        | cons op ops ih =>
          intro ks x y h
          cases ks with
          | nil => cases h
          | cons k ks => obtain ⟨_, _, _, _, _, _, _, h⟩ := h; simp [ih h]
      simp only [backward, List.map_cons, List.reverse_cons] at h'
      obtain ⟨m, h6, h7⟩ := Quote.snoc (by simp [hlen h5]) h'
      have hm := ih h5 h6 hy
      obtain ⟨r', s', cm', h8, h9⟩ := h7
      cases h9
      simp only [h2, h3] at h8
      exact computeSwap_back h1 h8 hm

namespace RouteSt

variable {c : Chain} {a f rcv : Addr} {adm fadm : Option Addr} {s : Router.State} {fst : Factory.State}

/-- What a route does to what its pairs hold. -/
theorem shifted {adv : Adv} (hr : c.api.resolve a = .ok a) (hfa : c.api.human s.haloFactory = some f) :
    ∀ {ops : List SwapOp} {ks : List PairSite} {v v' : World} {x y : Nat} {n n' : Nat} {last : SwapOp},
    RouteSt c a f rcv adm fadm s fst v ops ks x → ops.getLast? = some last → Quote v ops ks x y →
    run c adv n v ((Router.hopMsgs a rcv ops).map fun m => .msg a (plain m)) = .ok (n', v') → Shifted v v' ops ks x y := by
  intro ops
  induction ops with
  | nil => intro _ _ _ _ _ _ _ _ _ h; cases h
  | cons op ops ih =>
    intro ks v v' x y n n' last h hl hq hrun
    cases ks with
    | nil => cases h.site
    | cons k ks =>
      obtain ⟨r, sp, cm, hc1, hq2⟩ := hq
      have hak := h.ne_pair
      have hrk := h.rcv_ne_pair
      have hne : op.offer ≠ op.ask := h.hop.dir.ne h.hop.ctx
      have one : ∀ {v1 u : World} {d : Addr}, d ≠ k.a → Xfer op.offer a k.a x v v1 →
          ((r = 0 ∧ u = v1) ∨ (r ≠ 0 ∧ Xfer op.ask k.a d r v1 u)) →
          held u op.offer k.a = held v op.offer k.a + x ∧ held u op.ask k.a = held v op.ask k.a - r ∧
            ∀ i, i ≠ op.offer → i ≠ op.ask → held u i k.a = held v i k.a := by
        intro v1 u d hd hx1 hx2
        have b := (hx1.bal hak).2
        rcases hx2 with ⟨rfl, rfl⟩ | ⟨_, hx2⟩
        · exact ⟨b, hx1.other _ (Ne.symm hne) _, fun i hi _ => hx1.other i hi _⟩
        · refine ⟨by rw [hx2.other _ hne, b], ?_, fun i hi hj => by rw [hx2.other i hj, hx1.other i hi]⟩
          rw [(hx2.bal (Ne.symm hd)).1, hx1.other _ (Ne.symm hne)]
      cases ops with
      | nil =>
        cases h.site with
        | cons _ h2 =>
        cases h2
        simp only [Router.hopMsgs, List.map_cons, List.map_nil] at hrun
        obtain ⟨_, ret, sp', cm', v1, hc2, hx1, hx2⟩ := h.hop_effect hr hfa hrun
        rw [hc1] at hc2
        cases hc2
        obtain ⟨e1, e2, e3⟩ := one hrk hx1 hx2
        exact ⟨r, sp, cm, hc1, e1, e2, e3, hq2⟩
      | cons op2 ops =>
        simp only [Router.hopMsgs, List.map_cons] at hrun
        rw [← List.singleton_append, run_append] at hrun
        obtain ⟨m, u, hrun1, hrun2⟩ := hrun
        obtain ⟨_, ret, sp', cm', v1, hc2, hx1, hx2⟩ := h.hop_effect hr hfa hrun1
        rw [hc1] at hc2
        cases hc2
        obtain ⟨hst, _, _, hks, _, _⟩ := h.next hx1 hx2
        have hl' : (op2 :: ops).getLast? = some last := by simpa using hl
        have k1 := ih hst hl' (hq2.congr hks) hrun2
        obtain ⟨_, _, _, _, _, k6⟩ := hst.effect hr hfa hl' (hq2.congr hks) hrun2
        have hn : k.a ∉ ks.map PairSite.a := (List.nodup_cons.mp h.nodup).1
        have e6 := k6 k.a (Ne.symm hak) (Ne.symm hrk) hn
        obtain ⟨e1, e2, e3⟩ := one hak hx1 hx2
        exact ⟨r, sp, cm, hc1, by rw [e6, e1], by rw [e6, e2], fun i hi hj => by rw [e6, e3 i hi hj],
          k1.congr (fun k' hk' i => (hks k' hk' i).symm) fun _ _ _ => rfl⟩

end RouteSt

/-- What a route transaction does to every account. -/
theorem route_everyone {c : Chain} (hc : c.Lawful) {w w' : World} (hw : Reachable c w) {S rou f t : Addr}
    {adm fadm : Option Addr} {s : Router.State} {fs : Factory.State} {ops : List SwapOp} {ks : List PairSite}
    {first last : SwapOp} {dst : Option Str} (h : OnRoute c w S rou f t adm fadm s fs ops ks first last dst)
    {mn : Option Nat} {x : Nat} {adv : Adv} {gas : Nat}
    (hrun : runTx c adv gas w S (.exec t (.send rou x (.executeSwapOperations ops mn dst)) []) = .ok w') :
    ∃ y, Legs c fs w ops ks x y ∧ Shifted w w' ops ks x y ∧ x ≤ held w (.token t) S ∧
      (∀ i, held w' i (dst.getD S) =
        held w i (dst.getD S) - (if dst.getD S = S ∧ i = .token t then x else 0) + (if i = last.ask then y else 0)) ∧
      ∀ b, b ≠ S → b ≠ dst.getD S → b ∉ ks.map PairSite.a → ∀ i, held w' i b = held w i b := by
  obtain ⟨_, v, n, m, y, hx, hr, hl, _⟩ := h.parts hc hw hrun
  obtain ⟨hst, hks⟩ := h.start hc hw hx
  have hSr := (addr_facts hc hw h.router).2 S h.user
  have hq := (hl.congr hks).quote
  have hres := (addr_facts hc hw h.router).1
  obtain ⟨_, _, _, e4, e5, e6⟩ := hst.effect hres h.names h.tail hq hr
  have hsh := hst.shifted hres h.names h.tail hq hr
  obtain ⟨y', hy', hle, heff⟩ := route_effect hc hw h hrun
  obtain rfl := hl.quote.inj hy'
  refine ⟨y, hl, hsh.congr (fun k hk i => (hks k hk i).symm) fun _ _ _ => rfl, hle, heff, fun b b1 b2 b3 i => ?_⟩
  by_cases hb : b = rou
  · subst hb
    by_cases hi : ∃ op ∈ ops, i = op.offer
    · obtain ⟨op, ho, rfl⟩ := hi
      rw [e4 op ho, h.empty op ho]
    · rw [e5 i fun op ho e => hi ⟨op, ho, e⟩, hx.other i]
      intro e
      exact hi ⟨first, List.mem_of_head? h.head, by rw [e, h.offer]⟩
  · rw [e6 b hb b2 b3, hx.outside b1 hb]

/-- `S` makes the swaps of a route themselves: one transaction for each hop, each with exactly what the previous one paid
them. `x` is what they start with and `z` what they get in the end. -/
inductive ByHand (c : Chain) (S : Addr) (bp ms : Option Nat) :
    World → List SwapOp → List PairSite → Nat → World → Nat → Prop where
  | done (w : World) (x : Nat) : ByHand c S bp ms w [] [] x w x
  | swap {w w1 w2 : World} {op : SwapOp} {ops : List SwapOp} {k : PairSite} {ks : List PairSite} {x y z : Nat} {t : Addr}
      {adv : Adv} {gas : Nat} : op.offer = .token t →
      runTx c adv gas w S (.exec t (.send k.a x (.swap bp ms none)) []) = .ok w1 →
      held w1 op.ask S = held w op.ask S + y → ByHand c S bp ms w1 ops ks y w2 z →
      ByHand c S bp ms w (op :: ops) (k :: ks) x w2 z

/-- What one of these swaps does to every account. -/
theorem hand_swap {c : Chain} (hc : c.Lawful) {w w1 : World} (hw : Reachable c w) {S : Addr} (hS : c.IsUser S)
    {bp ms : Option Nat} {op : SwapOp} {k : PairSite} (hk : k.Sound c w) (hd : k.Dir op.offer op.ask) {t : Addr}
    (ht : op.offer = .token t) {x : Nat} {adv : Adv} {gas : Nat}
    (h : runTx c adv gas w S (.exec t (.send k.a x (.swap bp ms none)) []) = .ok w1) :
    Reachable c w1 ∧ TokKeep w w1 ∧ x ≠ 0 ∧ x ≤ held w op.offer S ∧ ∃ r s cm,
      Pair.computeSwap (held w op.offer k.a) (held w op.ask k.a) x = .ok (r, s, cm) ∧
      Pair.assertMaxSpread bp ms x r s (k.decimals op.offer).1 (k.decimals op.offer).2 = .ok () ∧
      held w1 op.offer k.a = held w op.offer k.a + x ∧ held w1 op.ask k.a = held w op.ask k.a - r ∧
      (∀ i, i ≠ op.offer → i ≠ op.ask → held w1 i k.a = held w i k.a) ∧
      (∀ i, held w1 i S + (if i = op.offer then x else 0) = held w i S + if i = op.ask then r else 0) ∧
      ∀ b, b ≠ S → b ≠ k.a → ∀ i, held w1 i b = held w i b := by
  have hw1 : Reachable c w1 := .step _ _ hw (.tx _ _ _ _ _ _ hS h)
  obtain ⟨n, hr⟩ := runTx_inv h
  have hx := hk.ctx hc
  have hSa : S ≠ k.a := (addr_facts hc hw hk.pair).2 S hS
  have hSr : c.api.resolve S = .ok S := PairSite.resolve_of_validate hS.2
  have hne := hd.ne hx
  rw [ht] at hd hne ⊢
  obtain ⟨hx0, hle, _, _, r', s', cm', hp', hsp⟩ := (hk.good hc hw).swap_needs hx (addr_facts hc hw hk.pair).1 hSa hd hr
  obtain ⟨r, sp, cm, v1, _, hp, hx1, hx2⟩ :=
    (hk.good hc hw).swap_exact' hx (addr_facts hc hw hk.pair).1 hSr hSa hd hr
  rw [hp] at hp'
  cases hp'
  obtain ⟨b1, b2⟩ := hx1.bal hSa
  rcases hx2 with ⟨rfl, rfl⟩ | ⟨_, hx2⟩
  · refine ⟨hw1, hx1.keep, hx0, hle, _, _, _, hp, hsp, b2, hx1.other _ (Ne.symm hne) _, fun i hi _ => hx1.other i hi _,
      fun i => ?_, fun b h1 h2 i => hx1.outside h1 h2 i⟩
    by_cases hi : i = .token t
    · subst hi; rw [b1, if_pos rfl, if_neg hne]; omega
    · rw [hx1.other i hi, if_neg hi]; simp
  · simp only [Option.getD_none] at hx2
    obtain ⟨c1, c2⟩ := hx2.bal (Ne.symm hSa)
    refine ⟨hw1, hx1.keep.trans hx2.keep, hx0, hle, _, _, _, hp, hsp, ?_, ?_, ?_, fun i => ?_, fun b h1 h2 i => ?_⟩
    · rw [hx2.other _ hne, b2]
    · rw [c1, hx1.other _ (Ne.symm hne)]
    · intro i h1 h2; rw [hx2.other i h2, hx1.other i h1]
    · by_cases hi : i = .token t
      · subst hi; rw [hx2.other _ hne, b1, if_pos rfl, if_neg hne]; omega
      · rw [if_neg hi]
        by_cases hj : i = op.ask
        · rw [hj, if_pos rfl, c2, hx1.other _ (Ne.symm hne)]; simp
        · rw [if_neg hj, hx2.other i hj, hx1.other i hi]
    · rw [hx2.outside h2 h1, hx1.outside h1 h2]

theorem ByHand.effect {c : Chain} (hc : c.Lawful) {S : Addr} (hS : c.IsUser S) {bp ms : Option Nat} {w w2 : World}
    {ops : List SwapOp} {ks : List PairSite} {x z : Nat} (h : ByHand c S bp ms w ops ks x w2 z) :
    Reachable c w → List.Forall₂ (fun op k => k.Sound c w ∧ k.Dir op.offer op.ask) ops ks →
    (ks.map PairSite.a).Nodup → (ops.IsChain fun a b => a.ask = b.offer) →
    Shifted w w2 ops ks x z ∧ (∀ b, b ≠ S → b ∉ ks.map PairSite.a → ∀ i, held w2 i b = held w i b) ∧
    ∀ first last, ops.head? = some first → ops.getLast? = some last →
      ∀ i, held w2 i S + (if i = first.offer then x else 0) = held w i S + if i = last.ask then z else 0 := by
  induction h with
  | done w x => intro _ _ _ _; exact ⟨rfl, fun _ _ _ _ => rfl, by intro _ _ h; cases h⟩
  | @swap w w1 w2 op ops k ks x y z t adv gas ht hrun hy hrest ih =>
    intro hw hks hn hcon
    cases hks with
    | cons hk hks =>
    obtain ⟨hw1, hkeep, _, _, r, s, cm, hp, _, e1, e2, e3, e4, e5⟩ := hand_swap hc hw hS hk.1 hk.2 ht hrun
    have hne := hk.2.ne (hk.1.ctx hc)
    have hyr : y = r := by
      have := e4 op.ask
      rw [if_neg (Ne.symm hne), if_pos rfl] at this
      omega
    subst hyr
    obtain ⟨hn1, hn2⟩ := List.nodup_cons.mp hn
    have hSk : ∀ k' ∈ ks, S ≠ k'.a := by
      intro k' hk'
      obtain ⟨op', _, hs⟩ := forall₂_mem_right hks hk'
      exact (addr_facts hc hw hs.1.pair).2 S hS
    have hSa : S ≠ k.a := (addr_facts hc hw hk.1.pair).2 S hS
    have hkk : ∀ k' ∈ ks, k'.a ≠ k.a := fun k' hk' e => hn1 (e ▸ List.mem_map_of_mem hk')
    have hsame : ∀ k' ∈ ks, ∀ i, held w1 i k'.a = held w i k'.a :=
      fun k' hk' i => e5 _ (Ne.symm (hSk k' hk')) (hkk k' hk') i
    obtain ⟨g1, g2, g3⟩ := ih hw1 (hks.imp fun op' k' hs => ⟨((hs.1.good hc hw).keep hkeep).sound (hs.1.ctx hc), hs.2⟩) hn2
      hcon.tail
    have hk2 := g2 k.a (Ne.symm hSa) hn1
    refine ⟨⟨y, s, cm, hp, by rw [hk2, e1], by rw [hk2, e2], fun i hi hj => by rw [hk2, e3 i hi hj],
      g1.congr (fun k' hk' i => (hsame k' hk' i).symm) fun _ _ _ => rfl⟩, ?_, ?_⟩
    · intro b hb hbk i
      simp only [List.map_cons, List.mem_cons, not_or] at hbk
      rw [g2 b hb hbk.2, e5 b hb hbk.1]
    · intro first last hf hl i
      cases hf
      have := e4 i
      cases ops with
      | nil =>
        cases hrest
        cases hl
        exact this
      | cons op2 ops =>
        have g := g3 op2 last rfl (by simpa using hl) i
        have hcc : op.ask = op2.offer := (List.isChain_cons_cons.mp hcon).1
        rw [← hcc] at g
        omega

/-- **C77.** More in, more out: of two routes over the same pairs that could be performed in the same state, by anyone, through any
router, the one that offers more pays its receiver no less. -/
theorem C77_more_in_more_out {c : Chain} (hc : c.Lawful) {w w1 w2 : World} (hw : Reachable c w)
    {ops : List SwapOp} {ks : List PairSite} {S1 S2 rou1 rou2 f1 f2 t1 t2 : Addr} {adm1 adm2 fadm1 fadm2 : Option Addr}
    {s1 s2 : Router.State} {fs1 fs2 : Factory.State} {first1 last1 first2 last2 : SwapOp} {dst1 dst2 : Option Str}
    (h1 : OnRoute c w S1 rou1 f1 t1 adm1 fadm1 s1 fs1 ops ks first1 last1 dst1)
    (h2 : OnRoute c w S2 rou2 f2 t2 adm2 fadm2 s2 fs2 ops ks first2 last2 dst2)
    {mn1 mn2 : Option Nat} {x1 x2 : Nat} {adv1 adv2 : Adv} {gas1 gas2 : Nat}
    (hr1 : runTx c adv1 gas1 w S1 (.exec t1 (.send rou1 x1 (.executeSwapOperations ops mn1 dst1)) []) = .ok w1)
    (hr2 : runTx c adv2 gas2 w S2 (.exec t2 (.send rou2 x2 (.executeSwapOperations ops mn2 dst2)) []) = .ok w2)
    (hx : x1 ≤ x2) :
    ∃ y1 y2, y1 ≤ y2 ∧
      (∀ i, held w1 i (dst1.getD S1) = held w i (dst1.getD S1) - (if dst1.getD S1 = S1 ∧ i = .token t1 then x1 else 0) +
        (if i = last1.ask then y1 else 0)) ∧
      ∀ i, held w2 i (dst2.getD S2) = held w i (dst2.getD S2) - (if dst2.getD S2 = S2 ∧ i = .token t2 then x2 else 0) +
        (if i = last2.ask then y2 else 0) := by
  obtain ⟨y1, q1, _, e1⟩ := route_effect hc hw h1 hr1
  obtain ⟨y2, q2, _, e2⟩ := route_effect hc hw h2 hr2
  exact ⟨y1, y2, q1.mono q2 hx, e1, e2⟩

/-- **C77.** There and back: a user who performs a route, and then the same hops the other way round with at most what they got for it,
holds at most as much of the first token as before. If they offer all of it, they hold at most as much of everything. -/
theorem C77_there_and_back {c : Chain} (hc : c.Lawful) {w w1 w2 : World} (hw : Reachable c w)
    {ops : List SwapOp} {ks : List PairSite} {S rou1 rou2 f1 f2 t u : Addr} {adm1 adm2 fadm1 fadm2 : Option Addr}
    {s1 s2 : Router.State} {fs1 fs2 : Factory.State} {first1 last1 first2 last2 : SwapOp}
    (h1 : OnRoute c w S rou1 f1 t adm1 fadm1 s1 fs1 ops ks first1 last1 none)
    (h2 : OnRoute c w1 S rou2 f2 u adm2 fadm2 s2 fs2 (ops.map fun op => ⟨op.ask, op.offer⟩).reverse ks.reverse
      first2 last2 none) (htu : t ≠ u)
    {mn1 mn2 : Option Nat} {x y z : Nat} {adv1 adv2 : Adv} {gas1 gas2 : Nat}
    (hr1 : runTx c adv1 gas1 w S (.exec t (.send rou1 x (.executeSwapOperations ops mn1 none)) []) = .ok w1)
    (hy : held w1 (.token u) S = held w (.token u) S + y) (hz : z ≤ y)
    (hr2 : runTx c adv2 gas2 w1 S (.exec u (.send rou2 z (.executeSwapOperations
      (ops.map fun op => ⟨op.ask, op.offer⟩).reverse mn2 none)) []) = .ok w2) :
    held w2 (.token t) S ≤ held w (.token t) S ∧ (z = y → ∀ i, held w2 i S ≤ held w i S) := by
  have hw1 : Reachable c w1 := .step _ _ hw (.tx _ _ _ _ _ _ h1.user hr1)
  obtain ⟨y', _, hs, hle, e1, _⟩ := route_everyone hc hw h1 hr1
  obtain ⟨x', hq2, hle2, e2⟩ := route_effect hc hw1 h2 hr2
  simp only [Option.getD_none, true_and] at e1 e2
  have hlu : last1.ask = .token u := by
    have := h2.head
    rw [List.head?_reverse, List.getLast?_map, h1.tail] at this
    simp only [Option.map_some, Option.some.injEq] at this
    rw [← h2.offer, ← this]
  have hft : last2.ask = .token t := by
    have := h2.tail
    rw [List.getLast?_reverse, List.head?_map, h1.head] at this
    simp only [Option.map_some, Option.some.injEq] at this
    rw [← h1.offer, ← this]
  have hne : (AssetInfo.token u) ≠ .token t := fun e => htu (AssetInfo.token.inj e).symm
  have hyy : y' = y := by
    have := e1 (.token u)
    rw [hy, hlu, if_pos rfl, if_neg hne] at this
    omega
  subst hyy
  have hx' := hs.back hq2 hz
  have key : held w2 (.token t) S ≤ held w (.token t) S := by
    have a1 := e1 (.token t)
    have a2 := e2 (.token t)
    rw [hlu, if_pos rfl, if_neg (Ne.symm hne)] at a1
    rw [hft, if_pos rfl, if_neg (Ne.symm hne)] at a2
    omega
  refine ⟨key, fun hzy i => ?_⟩
  by_cases hi : i = .token t
  · rw [hi]; exact key
  · have a1 := e1 i
    have a2 := e2 i
    rw [if_neg hi, hlu] at a1
    rw [hft, if_neg hi] at a2
    by_cases hj : i = .token u
    · rw [if_pos hj] at a1 a2; omega
    · rw [if_neg hj] at a1 a2; omega

/-- **C77.** The router is as good as one's own hands: performing a route through the router and making its swaps oneself, one
transaction each, from the same state, leave every account with exactly the same balances. -/
theorem C77_same_as_by_hand {c : Chain} (hc : c.Lawful) {w w1 w2 : World} (hw : Reachable c w) {S rou f t : Addr}
    {adm fadm : Option Addr} {s : Router.State} {fs : Factory.State} {ops : List SwapOp} {ks : List PairSite}
    {first last : SwapOp} (h : OnRoute c w S rou f t adm fadm s fs ops ks first last none)
    {mn : Option Nat} {x : Nat} {adv : Adv} {gas : Nat}
    (hr : runTx c adv gas w S (.exec t (.send rou x (.executeSwapOperations ops mn none)) []) = .ok w1)
    {bp ms : Option Nat} {z : Nat} (hh : ByHand c S bp ms w ops ks x w2 z) :
    ∀ i b, held w1 i b = held w2 i b := by
  obtain ⟨y, _, hs, hle, e1, e2⟩ := route_everyone hc hw h hr
  obtain ⟨g1, g2, g3⟩ := hh.effect hc h.user hw (h.pairs.imp fun _ _ hs => ⟨hs.1, hs.2.1⟩) h.nodup h.con
  obtain ⟨rfl, hk⟩ := hs.same g1
  have g3 := g3 first last h.head h.tail
  simp only [Option.getD_none, true_and] at e1 e2
  intro i b
  by_cases hb : b = S
  · subst hb
    have a1 := e1 i
    have a2 := g3 i
    rw [h.offer] at a2
    by_cases hi : i = .token t
    · subst hi
      rw [if_pos rfl] at a1 a2
      omega
    · rw [if_neg hi] at a1 a2
      omega
  · by_cases hbk : b ∈ ks.map PairSite.a
    · obtain ⟨k, hk', rfl⟩ := List.mem_map.mp hbk
      exact hk k hk' i
    · rw [e2 b hb hb hbk, g2 b hb hbk]

/-- Where the router would succeed, so do the single swaps. -/
theorem hand_of_legs {c : Chain} (hc : c.Lawful) {S : Addr} (hS : c.IsUser S) (adv : Adv) {fs : Factory.State} :
    ∀ {ops : List SwapOp} {ks : List PairSite} {w : World} {x y : Nat}, Reachable c w →
    List.Forall₂ (fun op k => k.Sound c w ∧ k.Dir op.offer op.ask) ops ks → (ks.map PairSite.a).Nodup →
    (ops.IsChain fun a b => a.ask = b.offer) → (∀ k ∈ ks, held w k.i0 k.a < B128 ∧ held w k.i1 k.a < B128) →
    (∀ first, ops.head? = some first → x ≤ held w first.offer S) → Legs c fs w ops ks x y →
    ∃ w2, ByHand c S none none w ops ks x w2 y := by
  intro ops
  induction ops with
  | nil =>
    intro ks w x y _ hks _ _ _ _ hl
    cases hks
    cases hl
    exact ⟨w, .done w x⟩
  | cons op ops ih =>
    intro ks w x y hw hks hn hcon hbd hx hl
    cases hks with
    | cons hk hks =>
    rename_i k ks
    obtain ⟨h0, ⟨t, ht⟩, _, r, s, cm, hp, hsp, hrest⟩ := hl
    obtain ⟨_, _, hr⟩ := computeSwap_form hp
    have hg := grossOf_le (held w op.offer k.a) (held w op.ask k.a) x
    have hb : held w op.ask k.a < B128 := by
      have := hbd k (.head _)
      rcases hk.2 with ⟨_, e⟩ | ⟨_, e⟩
      · rw [← e]; exact this.2
      · rw [← e]; exact this.1
    have hSa : S ≠ k.a := (addr_facts hc hw hk.1.pair).2 S hS
    have hxS := hx op rfl
    obtain ⟨n', w1, _, hrun⟩ := (hk.1.good hc hw).swap_live adv 0 (S := S) (t := t) (dst := none) hw.tokensOk (hk.1.ctx hc)
      (addr_facts hc hw hk.1.pair).1 (PairSite.resolve_of_validate hS.2) hSa (j := op.ask) (ht ▸ hk.2) hb h0 (ht ▸ hxS)
      (fun _ e => nomatch e) rfl (ht ▸ hp) (by omega) (ht ▸ hsp)
    obtain ⟨w1, hrun⟩ := runTx_of ⟨n', w1, hrun⟩
    obtain ⟨hw1, hkeep, _, _, r', s', cm', hp', _, e1, e2, e3, e4, e5⟩ := hand_swap hc hw hS hk.1 hk.2 ht hrun
    rw [hp] at hp'
    cases hp'
    have hne := hk.2.ne (hk.1.ctx hc)
    have hy : held w1 op.ask S = held w op.ask S + r := by
      have := e4 op.ask
      rw [if_neg (Ne.symm hne), if_pos rfl] at this
      omega
    obtain ⟨hn1, hn2⟩ := List.nodup_cons.mp hn
    have hsame : ∀ k' ∈ ks, ∀ i, held w1 i k'.a = held w i k'.a := by
      intro k' hk' i
      obtain ⟨op', _, hs⟩ := forall₂_mem_right hks hk'
      exact e5 _ (Ne.symm ((addr_facts hc hw hs.1.pair).2 S hS)) (fun e => hn1 (e ▸ List.mem_map_of_mem hk')) i
    obtain ⟨w2, h2⟩ := ih hw1 (hks.imp fun op' k' hs => ⟨((hs.1.good hc hw).keep hkeep).sound (hs.1.ctx hc), hs.2⟩) hn2
      hcon.tail (fun k' hk' => by rw [hsame k' hk', hsame k' hk']; exact hbd k' (.tail _ hk'))
      (fun first hf => by
        cases ops with
        | nil => cases hf
        | cons op2 ops =>
          cases hf
          rw [← (List.isChain_cons_cons.mp hcon).1, hy]
          omega)
      (hrest.congr hsame)
    exact ⟨w2, .swap ht hrun hy h2⟩

/-- Where the single swaps succeed, the router would find a price for every hop. -/
theorem legs_of_hand {c : Chain} (hc : c.Lawful) {S : Addr} (hS : c.IsUser S) {fs : Factory.State} {w w2 : World}
    {ops : List SwapOp} {ks : List PairSite} {x z : Nat} (h : ByHand c S none none w ops ks x w2 z) : Reachable c w →
    List.Forall₂ (fun op k => k.Sound c w ∧ k.Dir op.offer op.ask) ops ks → (ks.map PairSite.a).Nodup →
    (∀ op ∈ ops, ∃ info, chkPI (Factory.queryPair c.api fs (op.offer, op.ask)) = .ok info) → Legs c fs w ops ks x z := by
  induction h with
  | done w x => intro _ _ _ _; rfl
  | @swap w w1 w2 op ops k ks x y z t adv gas ht hrun hy hrest ih =>
    intro hw hks hn hi
    cases hks with
    | cons hk hks =>
    obtain ⟨hw1, hkeep, h0, _, r, s, cm, hp, hsp, e1, e2, e3, e4, e5⟩ := hand_swap hc hw hS hk.1 hk.2 ht hrun
    have hne := hk.2.ne (hk.1.ctx hc)
    have hyr : y = r := by
      have := e4 op.ask
      rw [if_neg (Ne.symm hne), if_pos rfl] at this
      omega
    subst hyr
    obtain ⟨hn1, hn2⟩ := List.nodup_cons.mp hn
    have hsame : ∀ k' ∈ ks, ∀ i, held w1 i k'.a = held w i k'.a := by
      intro k' hk' i
      obtain ⟨op', _, hs⟩ := forall₂_mem_right hks hk'
      exact e5 _ (Ne.symm ((addr_facts hc hw hs.1.pair).2 S hS)) (fun e => hn1 (e ▸ List.mem_map_of_mem hk')) i
    have := ih hw1 (hks.imp fun op' k' hs => ⟨((hs.1.good hc hw).keep hkeep).sound (hs.1.ctx hc), hs.2⟩) hn2
      fun op' ho => hi op' (.tail _ ho)
    exact ⟨h0, ⟨t, ht⟩, hi op (.head _), y, s, cm, hp, hsp, this.congr fun k' hk' i => (hsame k' hk' i).symm⟩

/-- **C77.** The router can do exactly what one can do by hand: a route goes through if and only if its swaps, made one by one without
limits, go through, the factory knows their pairs, and the last one pays at least the demanded minimum. (Native reserves, and
the user's balance of a native target if there is a minimum, are below `2^128`.) -/
theorem C77_router_iff_by_hand {c : Chain} (hc : c.Lawful) {w : World} (hw : Reachable c w) {S rou f t : Addr}
    {adm fadm : Option Addr} {s : Router.State} {fs : Factory.State} {ops : List SwapOp} {ks : List PairSite}
    {first last : SwapOp} (h : OnRoute c w S rou f t adm fadm s fs ops ks first last none) (hfit : ∀ k ∈ ks, Fits k w)
    (mn : Option Nat)
    (hbig : ∀ m d, mn = some m → last.ask = .native d → ∀ k ∈ ks, w.bal d S + w.bal d k.a < 2 ^ 128)
    (x : Nat) (adv : Adv) (q : Querier) :
    (∃ gas w', runTx c adv gas w S (.exec t (.send rou x (.executeSwapOperations ops mn none)) []) = .ok w') ↔
      (∃ w2 z, ByHand c S none none w ops ks x w2 z ∧ ∀ m, mn = some m → m ≤ z) ∧
      ∀ op ∈ ops, ∃ info, (querier c q w).pairInfo f (op.offer, op.ask) = .ok info := by
  have hfr := hc.resolve_human h.names
  have hks := h.pairs.imp fun _ _ hs => And.intro hs.1 hs.2.1
  constructor
  · rintro ⟨gas, w', hrun⟩
    obtain ⟨_, v, n, m, y, hx, _, hl, hm⟩ := h.parts hc hw hrun
    obtain ⟨w2, h2⟩ := hand_of_legs hc h.user adv hw hks h.nodup h.con (fun k hk => (hfit k hk).lt hw.tokensOk)
      (fun first' hf => by
        rw [h.head] at hf
        cases hf
        rw [h.offer]; exact hx.le) hl
    refine ⟨⟨w2, y, h2, hm⟩, fun op ho => ?_⟩
    have key : ∀ {ops : List SwapOp} {ks : List PairSite} {x y : Nat}, Legs c fs w ops ks x y → ∀ op ∈ ops,
        ∃ info, chkPI (Factory.queryPair c.api fs (op.offer, op.ask)) = .ok info := by
      intro ops
      induction ops with
      | nil => intro _ _ _ _ _ h; cases h
      | cons op ops ih =>
        intro ks x y h op' ho
        cases ks with
        | nil => cases h
        | cons k ks =>
          obtain ⟨_, _, hi, _, _, _, _, _, h2⟩ := h
          rcases List.mem_cons.mp ho with rfl | ho
          · exact hi
          · exact ih h2 op' ho
    obtain ⟨info, hi⟩ := key hl op ho
    exact ⟨info, (pairInfo_iff h.factory hfr).mpr hi⟩
  · rintro ⟨⟨w2, z, hh, hm⟩, hi⟩
    have hl := legs_of_hand hc h.user (fs := fs) hh hw hks h.nodup fun op ho => by
      obtain ⟨info, hi⟩ := hi op ho
      exact ⟨info, (pairInfo_iff h.factory hfr).mp hi⟩
    have hx : 0 < x ∧ x ≤ held w (.token t) S := by
      have hhd := h.head
      cases hh with
      | done => cases hhd
      | swap ht hrun hy hrest =>
        cases hhd
        cases hks with
        | cons hk _ =>
        obtain ⟨_, _, h0, hle, _⟩ := hand_swap hc hw h.user hk.1 hk.2 ht hrun
        rw [h.offer] at hle
        exact ⟨Nat.pos_of_ne_zero h0, hle⟩
    refine (C60_route_iff hc hw h hfit mn hbig x adv q).mpr ⟨hx.1, hx.2, (fun _ e => nomatch e), z, ?_, hm⟩
    exact (legs_of hc hw h.factory hfr h.pairs hfit (lt_of_le_of_lt hx.2 (held_lt hw.tokensOk t S))).mpr hl

/-! ## The hypotheses can be met -/

namespace Demo

theorem viaB_self : OnRoute chain deployed user rou fac tA none none ⟨fac⟩ (facState deployed fac) viaB [siteAB, siteBC]
    ⟨.token tA, .token tB⟩ ⟨.token tB, .token tC⟩ none :=
  ⟨isUser_user, rouAt_eq (p := (none, ⟨fac⟩)) (by decide +kernel), rfl, facState_eq (a := fac) (by decide +kernel),
    viaB_pairs, by decide +kernel, by decide +kernel, rfl, rfl, rfl, by decide +kernel, by decide +kernel,
    by decide +kernel⟩

/-- `user` trades 1000 A over B for 3060 C, and 2000 A for 5286 C. -/
def there : World := worldOf (runTx chain idle 20 deployed user (.exec tA (.send rou 1000 (.executeSwapOperations viaB none none)) []))
def there2 : World := worldOf (runTx chain idle 20 deployed user (.exec tA (.send rou 2000 (.executeSwapOperations viaB none none)) []))
theorem there_run : runTx chain idle 20 deployed user (.exec tA (.send rou 1000 (.executeSwapOperations viaB none none)) []) =
    .ok there := worldOf_eq (by decide +kernel)
theorem there2_run : runTx chain idle 20 deployed user (.exec tA (.send rou 2000 (.executeSwapOperations viaB none none)) []) =
    .ok there2 := worldOf_eq (by decide +kernel)
theorem there_reachable : Reachable chain there := .step _ _ deployed_reachable (.tx _ _ _ _ _ _ isUser_user there_run)

example := C77_more_in_more_out lawful deployed_reachable viaB_self viaB_self there_run there2_run (by decide)

/-- And back again. -/
def viaBack : List SwapOp := [⟨.token tC, .token tB⟩, ⟨.token tB, .token tA⟩]
theorem look_there {i j : AssetInfo} {p : Addr} {info : PairInfo}
    (h : Factory.queryPair chain.api (facState there fac) (i, j) = .ok info)
    (e : (val (Factory.queryPair chain.api (facState there fac) (i, j))).map PairInfo.contractAddr = some p) :
    info.contractAddr = p := by
  rw [h] at e; exact Option.some.inj e
theorem back_route : OnRoute chain there user rou fac tC none none ⟨fac⟩ (facState there fac) viaBack [siteBC, siteAB]
    ⟨.token tC, .token tB⟩ ⟨.token tB, .token tA⟩ none :=
  ⟨isUser_user, rouAt_eq (p := (none, ⟨fac⟩)) (by decide +kernel), rfl, facState_eq (a := fac) (by decide +kernel),
    .cons ⟨sound_of (k := siteBC) (x := tB) (y := tC) (by decide +kernel) ⟨rfl, rfl, rfl⟩ rfl rfl (by decide +kernel)
        (by decide +kernel), .inr ⟨rfl, rfl⟩, fun _ h => look_there h (by decide +kernel)⟩
      (.cons ⟨sound_of (k := siteAB) (x := tA) (y := tB) (by decide +kernel) ⟨rfl, rfl, rfl⟩ rfl rfl (by decide +kernel)
        (by decide +kernel), .inr ⟨rfl, rfl⟩, fun _ h => look_there h (by decide +kernel)⟩ .nil),
    by decide +kernel, by decide +kernel, rfl, rfl, rfl, by decide +kernel, by decide +kernel, by decide +kernel⟩

def backAgain : World := worldOf (runTx chain idle 20 there user (.exec tC (.send rou 3060 (.executeSwapOperations viaBack none none)) []))
theorem backAgain_run : runTx chain idle 20 there user
    (.exec tC (.send rou 3060 (.executeSwapOperations viaBack none none)) []) = .ok backAgain := worldOf_eq (by decide +kernel)

example : (∀ i, held backAgain i user ≤ held deployed i user) ∧
    held backAgain (.token tA) user < held deployed (.token tA) user :=
  ⟨(C77_there_and_back lawful deployed_reachable viaB_self back_route (by decide) (y := 3060) there_run (by decide +kernel)
    (Nat.le_refl _) backAgain_run).2 rfl, by decide +kernel⟩

/-- By hand: 1000 A for 1813 B, then those for 3060 C. -/
def hand2 : World := worldOf (runTx chain idle 20 leg1 user (.exec tB (.send pBC 1813 (.swap none none none)) []))
theorem hand2_run : runTx chain idle 20 leg1 user (.exec tB (.send pBC 1813 (.swap none none none)) []) = .ok hand2 :=
  worldOf_eq (by decide +kernel)
theorem byHand : ByHand chain user none none deployed viaB [siteAB, siteBC] 1000 hand2 3060 :=
  .swap rfl leg1_run (by decide +kernel) (.swap rfl hand2_run (by decide +kernel) (.done _ _))

example : ∀ i b, held there i b = held hand2 i b := C77_same_as_by_hand lawful deployed_reachable viaB_self there_run byHand

example : ∃ w2 z, ByHand chain user none none deployed viaB [siteAB, siteBC] 1000 w2 z ∧ ∀ m, some 3000 = some m → m ≤ z :=
  ((C77_router_iff_by_hand lawful deployed_reachable viaB_self viaB_fits (some 3000) (fun _ _ _ h => nomatch h) 1000 idle
    (q 0 0 0)).mp ⟨20, worldOf (runTx chain idle 20 deployed user
      (.exec tA (.send rou 1000 (.executeSwapOperations viaB (some 3000) none)) [])), worldOf_eq (by decide +kernel)⟩).1

end Demo
end Halo
