import Verif.Props.Agent
/-! # Routes that may visit a pair more than once (helper lemmas for C123) -/

namespace Halo
open _root_.Halo.Spec

/-- What accounts hold. -/
abbrev Holds := Addr → AssetInfo → Nat

/-- What accounts hold after `p` took `x` of `i` and paid `r` of `j`. -/
def Holds.traded (b : Holds) (p : Addr) (i j : AssetInfo) (x r : Nat) : Holds := fun q l =>
  if q = p then if l = i then b q l + x else if l = j then b q l - r else b q l else b q l

/-- The amounts along a route that goes through: every hop at what the pairs hold after the hops before. -/
def Walk (c : Chain) (fst : Factory.State) : Holds → List SwapOp → List PairSite → Nat → Nat → Holds → Prop
  | b, [], [], x, y, b' => x = y ∧ b' = b
  | b, op :: ops, k :: ks, x, y, b' => x ≠ 0 ∧ (∃ t, op.offer = .token t) ∧
      (∃ info, chkPI (Factory.queryPair c.api fst (op.offer, op.ask)) = .ok info) ∧
      ∃ r s cm, Pair.computeSwap (b k.a op.offer) (b k.a op.ask) x = .ok (r, s, cm) ∧
        Pair.assertMaxSpread none none x r s (k.decimals op.offer).1 (k.decimals op.offer).2 = .ok () ∧
        Walk c fst (b.traded k.a op.offer op.ask x r) ops ks r y b'
  | _, _, _, _, _, _ => False

theorem Walk.unique {c : Chain} {fst : Factory.State} : ∀ {ops : List SwapOp} {ks : List PairSite} {b b1 b2 : Holds} {x y1 y2 : Nat},
    Walk c fst b ops ks x y1 b1 → Walk c fst b ops ks x y2 b2 → y1 = y2 ∧ b1 = b2 := by
  intro ops
  induction ops with
  | nil =>
    intro ks b b1 b2 x y1 y2 h h'
    cases ks with
    | nil => exact ⟨h.1.symm.trans h'.1, h.2.trans h'.2.symm⟩
    | cons => cases h
  | cons op ops ih =>
    intro ks b b1 b2 x y1 y2 h h'
    cases ks with
    | nil => cases h
    | cons k ks =>
      obtain ⟨_, _, _, r, s, cm, h1, _, h2⟩ := h
      obtain ⟨_, _, _, r', s', cm', h1', _, h2'⟩ := h'
      rw [h1] at h1'
      cases h1'
      exact ih h2 h2'

/-- Accounts that are none of the pairs are not concerned. -/
theorem Walk.off {c : Chain} {fst : Factory.State} : ∀ {ops : List SwapOp} {ks : List PairSite} {b b' : Holds} {x y : Nat},
    Walk c fst b ops ks x y b' → ∀ p, p ∉ ks.map PairSite.a → b' p = b p := by
  intro ops
  induction ops with
  | nil =>
    intro ks b b' x y h p _
    cases ks with
    | nil => rw [h.2]
    | cons => cases h
  | cons op ops ih =>
    intro ks b b' x y h p hp
    cases ks with
    | nil => cases h
    | cons k ks =>
      obtain ⟨_, _, _, r, s, cm, _, _, h2⟩ := h
      simp only [List.map_cons, List.mem_cons, not_or] at hp
      rw [ih h2 p hp.2]
      funext l
      simp only [Holds.traded, if_neg hp.1]

/-- Only what the pairs hold matters. -/
theorem Walk.congr {c : Chain} {fst : Factory.State} : ∀ {ops : List SwapOp} {ks : List PairSite} {b b' b2 : Holds} {x y : Nat},
    Walk c fst b ops ks x y b' → (∀ k ∈ ks, ∀ i, b2 k.a i = b k.a i) →
    ∃ b2', Walk c fst b2 ops ks x y b2' ∧ ∀ p i, b2 p i = b p i → b' p i = b2' p i := by
  intro ops
  induction ops with
  | nil =>
    intro ks b b' b2 x y h _
    cases ks with
    | nil => exact ⟨b2, ⟨h.1, rfl⟩, fun p i e => by rw [h.2, e]⟩
    | cons => cases h
  | cons op ops ih =>
    intro ks b b' b2 x y h hb
    cases ks with
    | nil => cases h
    | cons k ks =>
      obtain ⟨h0, ht, hi, r, s, cm, h1, hs, h2⟩ := h
      have key : ∀ p i, b2 p i = b p i → b2.traded k.a op.offer op.ask x r p i = b.traded k.a op.offer op.ask x r p i := by
        intro p i e
        unfold Holds.traded
        rw [e]
      obtain ⟨b2', g1, g2⟩ := ih h2 (b2 := b2.traded k.a op.offer op.ask x r) fun k' hk' i => key _ _ (hb k' (.tail _ hk') i)
      exact ⟨b2', ⟨h0, ht, hi, r, s, cm, by rw [hb k (.head _), hb k (.head _)]; exact h1, hs, g1⟩, fun p i e => g2 p i (key p i e)⟩

/-- Only tokens are offered: what a pair holds of a native coin does not grow. -/
theorem Holds.traded_native {b : Holds} {p : Addr} {t : Addr} {j : AssetInfo} {x r : Nat} (q : Addr) (d : Denom) :
    b.traded p (.token t) j x r q (.native d) ≤ b q (.native d) := by
  unfold Holds.traded
  split
  · rw [if_neg (by simp)]
    split
    · exact Nat.sub_le _ _
    · exact Nat.le_refl _
  · exact Nat.le_refl _

/-- What a route pays in a native coin was held by one of the pairs. -/
theorem Walk.native_le {c : Chain} {fst : Factory.State} {d : Denom} : ∀ {ops : List SwapOp} {ks : List PairSite} {b b' : Holds} {x y : Nat}
    {last : SwapOp}, Walk c fst b ops ks x y b' → ops.getLast? = some last → last.ask = .native d → ∃ k ∈ ks, y ≤ b k.a (.native d) := by
  intro ops
  induction ops with
  | nil => intro _ _ _ _ _ _ _ h; cases h
  | cons op ops ih =>
    intro ks b b' x y last h hl hd
    cases ks with
    | nil => cases h
    | cons k ks =>
      obtain ⟨_, ⟨t, ht⟩, _, r, s, cm, hp, _, h2⟩ := h
      cases ops with
      | nil =>
        cases ks with
        | cons => cases h2
        | nil =>
          obtain ⟨rfl, rfl⟩ := h2
          simp only [List.getLast?_singleton, Option.some.injEq] at hl
          subst hl
          refine ⟨k, .head _, ?_⟩
          rw [hd] at hp
          have hg := grossOf_le (b k.a op.offer) (b k.a (.native d)) x
          obtain ⟨_, _, hr⟩ := computeSwap_form hp
          omega
      | cons op2 ops =>
        obtain ⟨k', hk', hy⟩ := ih h2 (by simpa using hl) hd
        refine ⟨k', .tail _ hk', le_trans hy ?_⟩
        rw [ht]
        exact Holds.traded_native _ _

/-- The router is about to perform the route `ops` over the pairs `ks` with `x` units of the first asset. (`RouteSt`, without the
condition that the pairs are different.) -/
structure WalkSt (c : Chain) (a f rcv : Addr) (adm fadm : Option Addr) (s : Router.State) (fst : Factory.State)
    (v : World) (ops : List SwapOp) (ks : List PairSite) (x : Nat) : Prop where
  router : v.contracts a = some ⟨adm, .router s⟩
  factory : v.contracts f = some ⟨fadm, .factory fst⟩
  site : List.Forall₂ (HopSite c v fst) ops ks
  con : ops.IsChain fun a b => a.ask = b.offer
  rcv_ne : rcv ≠ a
  rcv_not : rcv ∉ ks.map PairSite.a
  bal : ∀ op, ops.head? = some op → held v op.offer a = x
  zero : ∀ op0, ops.head? = some op0 → ∀ op ∈ ops, op.offer ≠ op0.offer → held v op.offer a = 0

namespace WalkSt

variable {c : Chain} {a f rcv : Addr} {adm fadm : Option Addr} {s : Router.State} {fst : Factory.State}

/-- The first hop on its own. -/
theorem one {v : World} {op : SwapOp} {ops : List SwapOp} {k : PairSite} {ks : List PairSite} {x : Nat}
    (h : WalkSt c a f rcv adm fadm s fst v (op :: ops) (k :: ks) x) : RouteSt c a f rcv adm fadm s fst v [op] [k] x := by
  refine ⟨h.router, h.factory, ?_, by simp, by simp [Connected], h.rcv_ne, ?_, ?_, ?_⟩
  · have := h.site
    cases this with
    | cons h1 _ => exact .cons h1 .nil
  · intro hm
    simp only [List.map_cons, List.map_nil, List.mem_singleton] at hm
    exact h.rcv_not (by simp [hm])
  · intro op' e
    cases e
    exact h.bal op rfl
  · intro op0 e op' hm hne
    cases e
    simp only [List.mem_singleton] at hm
    exact absurd (by rw [hm]) hne

/-- After the first hop of a longer route. -/
theorem next {v v1 u : World} {op op2 : SwapOp} {ops : List SwapOp} {k : PairSite} {ks : List PairSite} {x r : Nat}
    (h : WalkSt c a f rcv adm fadm s fst v (op :: op2 :: ops) (k :: ks) x) (hx1 : Xfer op.offer a k.a x v v1)
    (hx2 : (r = 0 ∧ u = v1) ∨ (r ≠ 0 ∧ Xfer op.ask k.a a r v1 u)) :
    WalkSt c a f rcv adm fadm s fst u (op2 :: ops) ks r ∧ TokKeep v u ∧
      (∀ b, b ≠ a → b ≠ k.a → ∀ i, held u i b = held v i b) ∧
      held u op.offer k.a = held v op.offer k.a + x ∧ held u op.ask k.a = held v op.ask k.a - r ∧
      (∀ i, i ≠ op.offer → i ≠ op.ask → held u i k.a = held v i k.a) ∧ held u op.offer a = 0 ∧
      ∀ i, i ≠ op.offer → i ≠ op.ask → held u i a = held v i a := by
  have hak := h.one.ne_pair
  have hb := h.bal op rfl
  have hcc : op.ask = op2.offer := (List.isChain_cons_cons.mp h.con).1
  have h1 := h.one.hop
  have hne : op.offer ≠ op.ask := h1.dir.ne h1.ctx
  have hkeep : TokKeep v u := by
    rcases hx2 with ⟨_, rfl⟩ | ⟨_, hx2⟩
    exacts [hx1.keep, hx1.keep.trans hx2.keep]
  have hout : ∀ b, b ≠ a → b ≠ k.a → ∀ i, held u i b = held v i b := by
    intro b hb1 hb2 i
    rcases hx2 with ⟨_, rfl⟩ | ⟨_, hx2⟩
    · exact hx1.outside hb1 hb2 i
    · exact (hx2.outside hb2 hb1 i).trans (hx1.outside hb1 hb2 i)
  have hask : held u op.ask a = held v op.ask a + r := by
    rcases hx2 with ⟨rfl, rfl⟩ | ⟨_, hx2⟩
    · exact hx1.other _ (Ne.symm hne) a
    · rw [(hx2.bal (Ne.symm hak)).2, hx1.other _ (Ne.symm hne) a]
  have hoff : held u op.offer a = 0 := by
    have h3 : held v1 op.offer a = 0 := by rw [(hx1.bal hak).1]; omega
    rcases hx2 with ⟨_, rfl⟩ | ⟨_, hx2⟩
    · exact h3
    · rw [hx2.other _ hne, h3]
  have hoth : ∀ b i, i ≠ op.offer → i ≠ op.ask → held u i b = held v i b := by
    intro b i hi1 hi2
    rcases hx2 with ⟨_, rfl⟩ | ⟨_, hx2⟩
    · exact hx1.other i hi1 b
    · rw [hx2.other i hi2, hx1.other i hi1]
  have hask0 : held v op.ask a = 0 := by
    refine hcc ▸ h.zero op rfl op2 (by simp) ?_
    rw [← hcc]; exact Ne.symm hne
  refine ⟨⟨hkeep.contracts h.router (by intro st h; cases h), hkeep.contracts h.factory (by intro st h; cases h), ?_,
    (List.isChain_cons_cons.mp h.con).2, h.rcv_ne, (fun hm => h.rcv_not (by simp only [List.map_cons, List.mem_cons]; exact .inr hm)),
    ?_, ?_⟩, hkeep, hout, ?_, ?_, hoth _, hoff, hoth _⟩
  · have := h.site
    cases this with
    | cons _ h2 => exact h2.imp fun _ _ hh => hh.keep hkeep
  · intro op' e
    simp only [List.head?_cons, Option.some.injEq] at e
    subst e
    rw [← hcc, hask, hask0, Nat.zero_add]
  · intro op0 e op' hop' hne'
    simp only [List.head?_cons, Option.some.injEq] at e
    subst e
    by_cases hoo : op'.offer = op.offer
    · rw [hoo]; exact hoff
    · rw [hoth _ _ hoo (hcc ▸ hne')]
      exact h.zero op rfl op' (.tail _ hop') hoo
  · rcases hx2 with ⟨_, rfl⟩ | ⟨_, hx2⟩
    · exact (hx1.bal hak).2
    · rw [hx2.other _ hne]; exact (hx1.bal hak).2
  · rcases hx2 with ⟨rfl, rfl⟩ | ⟨_, hx2⟩
    · exact hx1.other _ (Ne.symm hne) _
    · rw [(hx2.bal (Ne.symm hak)).1, hx1.other _ (Ne.symm hne)]

/-- The pairs after a hop. -/
theorem traded {P : Addr → Prop} {b : Holds} {v u : World} {p : Addr} {i j : AssetInfo} {x r : Nat} (_hne : i ≠ j)
    (hb : ∀ q, P q → ∀ l, b q l = held v l q) (h1 : ∀ q, P q → q ≠ p → ∀ l, held u l q = held v l q)
    (h2 : held u i p = held v i p + x) (h3 : held u j p = held v j p - r) (h4 : ∀ l, l ≠ i → l ≠ j → held u l p = held v l p) :
    ∀ q, P q → ∀ l, b.traded p i j x r q l = held u l q := by
  intro q hq l
  unfold Holds.traded
  by_cases hqp : q = p
  · subst hqp
    rw [if_pos rfl, hb q hq]
    split
    · rename_i e; rw [e, h2]
    · split
      · rename_i e; rw [e, h3]
      · rename_i e1 e2; rw [h4 l e1 e2]
  · rw [if_neg hqp, hb q hq, h1 q hq hqp]

/-- A route that went through: the amounts, and what it did to everyone's balances. `P` are accounts other than the router and the
receiver, the pairs among them. -/
theorem effect {adv : Adv} (hr : c.api.resolve a = .ok a) (hfa : c.api.human s.haloFactory = some f) {P : Addr → Prop}
    (hPa : ¬ P a) (hPr : ¬ P rcv) :
    ∀ {ops : List SwapOp} {ks : List PairSite} {v v' : World} {b : Holds} {x : Nat} {n n' : Nat} {last : SwapOp},
    WalkSt c a f rcv adm fadm s fst v ops ks x → (∀ k ∈ ks, P k.a) → (∀ q, P q → ∀ i, b q i = held v i q) → ops.getLast? = some last →
    run c adv n v ((Router.hopMsgs a rcv ops).map fun m => .msg a (plain m)) = .ok (n', v') →
    ∃ y b', Walk c fst b ops ks x y b' ∧ TokKeep v v' ∧ held v' last.ask rcv = held v last.ask rcv + y ∧
      (∀ i, i ≠ last.ask → held v' i rcv = held v i rcv) ∧ (∀ op ∈ ops, held v' op.offer a = 0) ∧
      (∀ i, (∀ op ∈ ops, i ≠ op.offer) → held v' i a = held v i a) ∧ ∀ q, P q → ∀ i, b' q i = held v' i q := by
  intro ops
  induction ops with
  | nil => intro _ _ _ _ _ _ _ _ _ _ _ h; cases h
  | cons op ops ih =>
    intro ks v v' b x n n' last h hks hb hl hrun
    cases ks with
    | nil => have := h.site; cases this
    | cons k ks =>
      have hak := h.one.ne_pair
      have hra := h.rcv_ne
      have hrk := h.one.rcv_ne_pair
      have h1 := h.one.hop
      have hne : op.offer ≠ op.ask := h1.dir.ne h1.ctx
      have hPk : P k.a := hks k (.head _)
      cases ops with
      | nil =>
        have hsite := h.site
        cases hsite with
        | cons _ h2 =>
        cases h2
        simp only [List.getLast?_singleton, Option.some.injEq] at hl
        subst hl
        simp only [Router.hopMsgs, List.map_cons, List.map_nil] at hrun
        obtain ⟨h0, ht, hi, r, sp, cm, v1, hp, hs, hx1, hx2⟩ := h.one.hop_needs hr hfa hrun
        have e1 : ∀ i, held v1 i rcv = held v i rcv := hx1.outside hra hrk
        have e2 : held v1 op.offer a = 0 := by rw [(hx1.bal hak).1, h.bal op rfl]; omega
        refine ⟨r, _, ⟨h0, ht, hi, r, sp, cm, by rw [hb _ hPk, hb _ hPk]; exact hp, hs, rfl, rfl⟩, ?_⟩
        rcases hx2 with ⟨rfl, rfl⟩ | ⟨_, hx2⟩
        · refine ⟨hx1.keep, e1 _, fun i _ => e1 i, ?_, ?_, ?_⟩
          · intro op' ho; simp only [List.mem_singleton] at ho; subst ho; exact e2
          · intro i hi; exact hx1.other i (hi op (by simp)) a
          · exact traded hne hb (fun q hq hqk l => hx1.outside (fun e => hPa (e ▸ hq)) hqk l) (hx1.bal hak).2
              (hx1.other _ (Ne.symm hne) _) (fun l h1 _ => hx1.other l h1 _)
        · simp only [Option.getD_some] at hx2
          refine ⟨hx1.keep.trans hx2.keep, ?_, fun i hi => ?_, ?_, ?_, ?_⟩
          · rw [(hx2.bal (Ne.symm hrk)).2, e1]
          · rw [hx2.other i hi, e1]
          · intro op' ho; simp only [List.mem_singleton] at ho; subst ho
            rw [hx2.outside hak (Ne.symm hra), e2]
          · intro i hi; rw [hx2.outside hak (Ne.symm hra)]; exact hx1.other i (hi op (by simp)) a
          · refine traded hne hb (fun q hq hqk l => ?_) ?_ ?_ (fun l h1 h2 => ?_)
            · rw [hx2.outside hqk (fun e => hPr (e ▸ hq)), hx1.outside (fun e => hPa (e ▸ hq)) hqk]
            · rw [hx2.other _ hne]; exact (hx1.bal hak).2
            · rw [(hx2.bal (Ne.symm hrk)).1, hx1.other _ (Ne.symm hne)]
            · rw [hx2.other l h2, hx1.other l h1]
      | cons op2 ops =>
        have hcc : op.ask = op2.offer := (List.isChain_cons_cons.mp h.con).1
        simp only [Router.hopMsgs, List.map_cons] at hrun
        rw [← List.singleton_append, run_append] at hrun
        obtain ⟨m, u, hrun1, hrun2⟩ := hrun
        obtain ⟨h0, ht, hi, r, sp, cm, v1, hp, hs, hx1, hx2⟩ := h.one.hop_needs hr hfa hrun1
        obtain ⟨hst, hkeep, hout, g1, g2, g3, hoff, hoth⟩ := h.next hx1 hx2
        have hb2 := traded hne hb (fun q hq hqk l => hout q (fun e => hPa (e ▸ hq)) hqk l) g1 g2 g3
        obtain ⟨y, b', k0, k1, k2, k3, k4, k5, k6⟩ := ih hst (fun k' hk' => hks k' (.tail _ hk')) hb2 (by simpa using hl) hrun2
        refine ⟨y, b', ⟨h0, ht, hi, r, sp, cm, by rw [hb _ hPk, hb _ hPk]; exact hp, hs, k0⟩, hkeep.trans k1, ?_, fun i hi => ?_, ?_, ?_, k6⟩
        · rw [k2, hout rcv hra hrk]
        · rw [k3 i hi, hout rcv hra hrk]
        · intro op' ho
          rcases List.mem_cons.mp ho with rfl | ho
          · by_cases hh : ∃ op3 ∈ op2 :: ops, op3.offer = op'.offer
            · obtain ⟨op3, h3, e3⟩ := hh
              rw [← e3]; exact k4 op3 h3
            · rw [k5 _ fun op3 h3 e => hh ⟨op3, h3, e.symm⟩, hoff]
          · exact k4 op' ho
        · intro i hi
          rw [k5 i fun op' ho => hi op' (.tail _ ho)]
          exact hoth i (hi op (.head _)) (hcc ▸ hi op2 (by simp))

/-- A route with priced hops goes through. -/
theorem live (adv : Adv) (hr : c.api.resolve a = .ok a) (hfa : c.api.human s.haloFactory = some f)
    (hrcv : c.api.validate rcv = .ok rcv) {P : Addr → Prop} (hPa : ¬ P a) :
    ∀ {ops : List SwapOp} {ks : List PairSite} {v : World} {b b' : Holds} {x y : Nat} (n : Nat),
    TokensOk v → WalkSt c a f rcv adm fadm s fst v ops ks x → (∀ k ∈ ks, P k.a) → (∀ q, P q → ∀ i, b q i = held v i q) →
    (∀ k ∈ ks, ∀ d, k.i0 = .native d ∨ k.i1 = .native d → b k.a (.native d) < B128) → Walk c fst b ops ks x y b' →
    ∃ n' v', n ≤ n' ∧
      run c adv (n + 4 * ops.length) v ((Router.hopMsgs a rcv ops).map fun m => .msg a (plain m)) = .ok (n', v') := by
  intro ops
  induction ops with
  | nil => intro ks v b b' x y n _ _ _ _ _ _; exact ⟨n, v, Nat.le_refl n, run_nil⟩
  | cons op ops ih =>
    intro ks v b b' x y n hv h hks hb hbd hl
    cases ks with
    | nil => cases hl
    | cons k ks =>
      have hPk : P k.a := hks k (.head _)
      have h1 := h.one.hop
      have hne : op.offer ≠ op.ask := h1.dir.ne h1.ctx
      obtain ⟨hx0, ⟨t, ht⟩, ⟨info, hi⟩, r, sp, cm, hp, hs, hl2⟩ := hl
      have bnd : ∀ i, i = k.i0 ∨ i = k.i1 → held v i k.a < B128 := by
        intro i hi
        cases i with
        | token t => exact held_lt hv t k.a
        | native d =>
          rw [← hb _ hPk]
          exact hbd k (.head _) d (hi.imp Eq.symm Eq.symm)
      have b0 := bnd op.offer (h1.dir.fst)
      have b1 := bnd op.ask (h1.dir.snd)
      have hp' := hp
      rw [hb _ hPk, hb _ hPk] at hp'
      cases ops with
      | nil =>
        exact h.one.hop_live adv n hr hfa hv (dst := some rcv) (fun d e => by cases e; exact hrcv) hx0 ht hi b0 b1 hp' hs
      | cons op2 ops =>
        obtain ⟨m, u, hm, hrun⟩ := h.one.hop_live adv (n + 4 * (op2 :: ops).length) hr hfa hv (dst := none)
          (fun d e => by cases e) hx0 ht hi b0 b1 hp' hs
        obtain ⟨_, r', _, _, v1, hp2, hx1, hx2⟩ := h.one.hop_effect hr hfa hrun
        rw [hp'] at hp2
        cases hp2
        obtain ⟨hst, _, hout, g1, g2, g3, _, _⟩ := h.next hx1 hx2
        have hb2 := traded hne hb (fun q hq hqk l => hout q (fun e => hPa (e ▸ hq)) hqk l) g1 g2 g3
        obtain ⟨n', v', hn, hrun2⟩ := ih (m - 4 * (op2 :: ops).length) (hv.run hrun) hst (fun k' hk' => hks k' (.tail _ hk')) hb2
          (fun k' hk' d hd => lt_of_le_of_lt (ht ▸ Holds.traded_native _ _) (hbd k' (.tail _ hk') d hd)) hl2
        rw [show m - 4 * (op2 :: ops).length + 4 * (op2 :: ops).length = m by omega] at hrun2
        refine ⟨n', v', by omega, ?_⟩
        simp only [Router.hopMsgs, List.map_cons]
        rw [show n + 4 * (op :: op2 :: ops).length = n + 4 * (op2 :: ops).length + 4 by
          simp only [List.length_cons]; omega, ← List.singleton_append (l := List.map _ _), run_append]
        exact ⟨m, u, hrun, hrun2⟩

end WalkSt
end Halo
