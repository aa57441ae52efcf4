import Verif.Lemmas.RouteL
import Verif.Props.Router
import Verif.Props.Swap
import Verif.Props.Live
/-! # Reverse quotes as queries (C08), quotes of whole routes (C59), when routes go through and what they do (C60) -/

namespace Halo
open _root_.Halo.Spec

/-! ## C08 for queries and transactions -/

theorem reverse_price {c : Chain} (hc : c.Lawful) {w : World} (hw : Reachable c w) {k : PairSite}
    (hk : k.Sound c w) {i j : AssetInfo} (hd : k.Dir i j) {q : Querier} {y : Nat} (hy : y < 2 ^ 128) {quote : SimResp}
    (hq : (querier c q w).reverseSimulate k.a ⟨j, y⟩ = .ok quote) :
    Quoted (held w i k.a) (held w j k.a) y quote.amount quote.spread quote.commission := by
  simp only [querier, lookState, bind_eq_ok, okOr_eq_ok, pure_eq_ok, (addr_facts hc hw hk.pair).1, Except.ok.injEq] at hq
  obtain ⟨_, ⟨_, rfl, _, h3, rfl⟩, hs⟩ := hq
  rw [hk.pair] at h3
  cases h3
  simp only [chkSim, bind_eq_ok, require_eq_ok, pure_eq_ok] at hs
  obtain ⟨_, hs, _, _, rfl⟩ := hs
  obtain ⟨b0, b1, h⟩ := (hk.good hc hw).reversed (hk.ctx hc) (human_self hc hw hk.pair) hd hs
  exact ⟨b0, b1, hy, h⟩

/-- **C08** for the query and the transaction: a pair asked (in state `w`) what to offer in `t` for `y` units of `j` names an
amount; whoever then swaps at most that amount of `t` gets at most `y`, and whoever swaps more gets at least `y`, or for
requests above `3 * 10^15` units at most `1 + floor(y / 10^18)` units less. -/
theorem C08_reverse_query {c : Chain} (hc : c.Lawful) {w w' : World} (hw : Reachable c w) {k : PairSite}
    (hk : k.Sound c w) {t : Addr} {j : AssetInfo} (hd : k.Dir (.token t) j) {q : Querier} {y : Nat} (hy : y < 2 ^ 128)
    {quote : SimResp} (hq : (querier c q w).reverseSimulate k.a ⟨j, y⟩ = .ok quote) {x : Nat} {adv : Adv} {gas : Nat}
    {S : Addr} (hS : c.IsUser S) {bp ms : Option Nat} {dst : Option Str} (hdst : dst ≠ some k.a)
    (h : runTx c adv gas w S (.exec t (.send k.a x (.swap bp ms dst)) []) = .ok w') :
    (x ≤ quote.amount → held w' j (dst.getD S) ≤ held w j (dst.getD S) + y) ∧
    (quote.amount < x → held w j (dst.getD S) + y ≤ held w' j (dst.getD S) + 1 + y / 10 ^ 18 ∧
      (y ≤ 3 * 10 ^ 15 → held w j (dst.getD S) + y ≤ held w' j (dst.getD S))) := by
  obtain ⟨r, s, cm, hp, _, _, _, _, _, _, e⟩ := swap_tx hc hw hk hd hS hdst h
  obtain ⟨ho, hb, hqa⟩ := (reverse_price hc hw hk hd hy hq).form
  obtain ⟨_, _, hr, _⟩ := hp.form
  constructor
  · intro hx
    have h1 := gross_mono (a := held w j k.a) ho hx
    have h2 := quote_le ho hb
    simp only [← hqa] at h2
    omega
  · intro hx
    have h1 := gross_mono (a := held w j k.a) ho (show quote.amount + 1 ≤ x from hx)
    have h2 := quote_succ_ge ho hb
    simp only [← hqa, DF] at h2
    obtain ⟨h3, h4⟩ := h2
    refine ⟨by omega, fun hy2 => ?_⟩
    have := h4 (by omega)
    omega

/-! ## C59 -/

private theorem reverse_append {api : Api} {Q : Querier} {s : Router.State} : ∀ {l1 l2 : List SwapOp} {y x : Nat},
    Router.reverseSimulateLoop api Q s (l1 ++ l2) y = .ok x →
    ∃ a, Router.reverseSimulateLoop api Q s l1 y = .ok a ∧ Router.reverseSimulateLoop api Q s l2 a = .ok x := by
  intro l1
  induction l1 with
  | nil => intro l2 y x h; exact ⟨y, rfl, h⟩
  | cons op l1 ih =>
    intro l2 y x h
    simp only [List.cons_append, Router.reverseSimulateLoop, bind_eq_ok] at h
    obtain ⟨f, h1, a, h2, h3⟩ := h
    obtain ⟨b, h4, h5⟩ := ih h3
    refine ⟨b, ?_, h5⟩
    simp only [Router.reverseSimulateLoop, bind_eq_ok]
    exact ⟨f, h1, a, h2, h4⟩

/-- **C59.** The amount a route is said to cost for an output `y` never buys more than `y`: let the router's reverse
simulation answer `x` and its simulation of any offer up to `x` answer `z`. The pairs are those the factory names; they need
not be different, and the hops need not be connected. (`q`, `q'` are what other contracts answer.) -/
theorem C59_reverse_route {c : Chain} (hc : c.Lawful) {w : World} (hw : Reachable c w) {f : Addr} {fadm : Option Addr}
    {s : Router.State} {fs : Factory.State} {ops : List SwapOp} {ks : List PairSite}
    (hfa : c.api.human s.haloFactory = some f) (hf : w.contracts f = some ⟨fadm, .factory fs⟩)
    (hks : List.Forall₂ (fun op k => k.Sound c w ∧ k.Dir op.offer op.ask ∧
      ∀ info, Factory.queryPair c.api fs (op.offer, op.ask) = .ok info → info.contractAddr = k.a) ops ks)
    {q q' : Querier} {y x x' z : Nat} (hy : y < 2 ^ 128)
    (hrev : Router.reverseSimulateSwapOperations c.api (querier c q w) s y ops = .ok x) (hx : x' ≤ x)
    (hsim : Router.simulateSwapOperations c.api (querier c q' w) s x' ops = .ok z) : z ≤ y := by
  have hfr := hc.resolve_human hfa
  simp only [Router.reverseSimulateSwapOperations, bind_eq_ok, require_eq_ok] at hrev
  obtain ⟨_, _, hrev⟩ := hrev
  simp only [Router.simulateSwapOperations, bind_eq_ok, humanize_eq_ok, require_eq_ok] at hsim
  obtain ⟨f', hf', _, _, hsim⟩ := hsim
  rw [hfa] at hf'
  cases hf'
  have key : ∀ {ops : List SwapOp} {ks : List PairSite} {y x : Nat}, List.Forall₂ (fun op k => k.Sound c w ∧
      k.Dir op.offer op.ask ∧ ∀ info, Factory.queryPair c.api fs (op.offer, op.ask) = .ok info → info.contractAddr = k.a)
      ops ks → y < 2 ^ 128 → Router.reverseSimulateLoop c.api (querier c q w) s ops.reverse y = .ok x →
      x < 2 ^ 128 ∧ ∀ x' z, x' ≤ x → Router.simulateLoop (querier c q' w) f ops x' = .ok z → z ≤ y := by
    intro ops
    induction ops with
    | nil =>
      intro ks y x _ hy h
      simp only [List.reverse_nil, Router.reverseSimulateLoop, Except.ok.injEq] at h
      subst h
      refine ⟨hy, fun x' z hx hs => ?_⟩
      simp only [Router.simulateLoop, Except.ok.injEq] at hs
      omega
    | cons op ops ih =>
      intro ks y x hks hy h
      cases hks with
      | cons h1 h2 =>
        rename_i k ks
        rw [List.reverse_cons] at h
        obtain ⟨a, ha, hb⟩ := reverse_append h
        obtain ⟨hlt, hle⟩ := ih h2 hy ha
        simp only [Router.reverseSimulateLoop, bind_eq_ok, humanize_eq_ok] at hb
        obtain ⟨f', hf', x1, hx1, hb⟩ := hb
        rw [hfa] at hf'
        cases hf'
        simp only [Except.ok.injEq] at hb
        subst hb
        split at hx1
        · rename_i x2 hx2
          cases hx1
          simp only [Router.reverseSimulateReturnAmount, bind_eq_ok, pure_eq_ok] at hx2
          obtain ⟨info, hi, rq, hrq, rfl⟩ := hx2
          rw [h1.2.2 _ (pairInfo_eq hf hfr hi)] at hrq
          have hQ := reverse_price hc hw h1.1 h1.2.1 hlt hrq
          obtain ⟨ho, hbb, hqa⟩ := hQ.form
          have hxlt : rq.amount < 2 ^ 128 := by
            rw [hqa]
            exact ((computeOfferAmount_ok_iff hQ.1 hQ.2.1 hlt).mp hQ.2.2.2).2.2.1
          refine ⟨hxlt, fun x' z hx' hs => ?_⟩
          simp only [Router.simulateLoop, bind_eq_ok] at hs
          obtain ⟨info', hi', resp, hs1, hs2⟩ := hs
          rw [h1.2.2 _ (pairInfo_eq hf hfr hi')] at hs1
          obtain ⟨b0, b1, hp⟩ := quote_price' hc hw h1.1 h1.2.1 hs1
          obtain ⟨_, _, hr, _⟩ := Priced.form (⟨b0, b1, by omega, hp⟩ : Priced _ _ x' _ _ _)
          have g1 := gross_mono (a := held w op.ask k.a) ho hx'
          have g2 := quote_le ho hbb
          simp only [← hqa] at g2
          exact hle _ _ (by omega) hs2
        · cases hx1
  exact (key hks hy hrev).2 x' z hx hsim

/-! ## C60 -/

/-- The setting of C36 and C60: user `S` sends tokens `t` to the router `rou` for a route over different pairs with
well-behaved assets, each hop offering what the previous one bought; the pairs are those the router's factory names; the
router holds nothing of the assets to be sold on the route; the receiver is neither the router nor one of the pairs. -/
structure OnRoute (c : Chain) (w : World) (S rou f t : Addr) (adm fadm : Option Addr) (s : Router.State)
    (fs : Factory.State) (ops : List SwapOp) (ks : List PairSite) (first last : SwapOp) (dst : Option Str) : Prop where
  user : c.IsUser S
  router : w.contracts rou = some ⟨adm, .router s⟩
  names : c.api.human s.haloFactory = some f
  factory : w.contracts f = some ⟨fadm, .factory fs⟩
  pairs : List.Forall₂ (fun op k => k.Sound c w ∧ k.Dir op.offer op.ask ∧
      ∀ info, Factory.queryPair c.api fs (op.offer, op.ask) = .ok info → info.contractAddr = k.a) ops ks
  nodup : (ks.map PairSite.a).Nodup
  con : ops.IsChain fun a b => a.ask = b.offer
  head : ops.head? = some first
  tail : ops.getLast? = some last
  offer : first.offer = .token t
  empty : ∀ op ∈ ops, held w op.offer rou = 0
  rcv_rou : dst.getD S ≠ rou
  rcv_pairs : ∀ k ∈ ks, dst.getD S ≠ k.a

/-- `x` units of the first asset are quoted as `y` of the last one, hop by hop: every hop offers a token, the factory knows
its pair, the amount is not zero, the pair quotes it, and scaling the amounts to equal decimals does not overflow. -/
inductive HopByHop (Q : Querier) (f : Addr) : List SwapOp → List PairSite → Nat → Nat → Prop where
  | done (x : Nat) : HopByHop Q f [] [] x x
  | hop {op : SwapOp} {ops : List SwapOp} {k : PairSite} {ks : List PairSite} {x y : Nat} {t : Addr} {info : PairInfo}
      {quote : SimResp} : 0 < x → op.offer = .token t → Q.pairInfo f (op.offer, op.ask) = .ok info →
      info.contractAddr = k.a → Q.simulate k.a ⟨op.offer, x⟩ = .ok quote →
      SpreadOk none none (k.decimals op.offer).1 (k.decimals op.offer).2 x quote.amount quote.spread →
      HopByHop Q f ops ks quote.amount y → HopByHop Q f (op :: ops) (k :: ks) x y

/-- A route quoted hop by hop is quoted the same by the router. -/
theorem HopByHop.simulated {Q : Querier} {f : Addr} {ops : List SwapOp} {ks : List PairSite} {x y : Nat}
    (h : HopByHop Q f ops ks x y) : Router.simulateLoop Q f ops x = .ok y := by
  induction h with
  | done x => rfl
  | hop h0 ht hi hk hs _ _ ih =>
    simp only [Router.simulateLoop, bind_eq_ok]
    exact ⟨_, hi, _, by rw [hk]; exact hs, ih⟩

theorem legs_at {c : Chain} {w : World} (hv : TokensOk w) {f : Addr} {fadm : Option Addr}
    {fs : Factory.State} (hf : w.contracts f = some ⟨fadm, .factory fs⟩) (hfr : c.api.resolve f = .ok f) {q : Querier} :
    ∀ {ops : List SwapOp} {ks : List PairSite} {x y : Nat}, List.Forall₂ (HopSite c w fs) ops ks →
      (∀ k ∈ ks, Fits k w) → x < B128 → (HopByHop (querier c q w) f ops ks x y ↔ Legs c fs w ops ks x y) := by
  intro ops
  induction ops with
  | nil =>
    intro ks x y hks _ _
    cases hks
    constructor
    · intro h; cases h; rfl
    · rintro rfl; exact .done _
  | cons op ops ih =>
    intro ks x y hks hfit hx
    cases hks with
    | cons h1 h2 =>
      rename_i k ks
      have hd := h1.dir
      have hl := h1.look
      have hfit' : ∀ k ∈ ks, Fits k w := fun k' hk' => hfit k' (.tail _ hk')
      constructor
      · intro h
        cases h with
        | hop h0 ht hi hka hs hsp hrest =>
          rename_i t info quote
          have hp := (h1.good.quoted h1.ctx h1.res h1.hum hd hs).2.2
          obtain ⟨_, e2, e3, _⟩ := h1.good.simulate_live hv h1.ctx h1.res h1.hum (hfit k (.head _)) hd q hx hp
          exact ⟨by omega, ⟨t, ht⟩, ⟨info, (pairInfo_iff hf hfr).mp hi⟩, _, _, _, hp,
            (spread_iff (by simp) (by simp) hx e2 e3).mpr hsp, (ih h2 hfit' e2).mp hrest⟩
      · rintro ⟨h0, ⟨t, ht⟩, ⟨info, hi⟩, r, sp, cm, hp, hsp, hrest⟩
        obtain ⟨e1, e2, e3, _⟩ := h1.good.simulate_live hv h1.ctx h1.res h1.hum (hfit k (.head _)) hd q hx hp
        have hi' := (pairInfo_iff (q := q) hf hfr).mpr hi
        exact .hop (by omega) ht hi' (hl _ (pairInfo_eq hf hfr hi')) e1
          ((spread_iff (by simp) (by simp) hx e2 e3).mp hsp) ((ih h2 hfit' e2).mpr hrest)

theorem legs_le {c : Chain} {fs : Factory.State} {w : World} : ∀ {ops : List SwapOp} {ks : List PairSite}
    {x y : Nat} {last : SwapOp}, List.Forall₂ (HopSite c w fs) ops ks →
    (∀ k ∈ ks, held w k.i0 k.a < B128 ∧ held w k.i1 k.a < B128) → x < B128 → ops.getLast? = some last → Legs c fs w ops ks x y → y < B128 ∧ ∃ k ∈ ks, y ≤ held w last.ask k.a := by
  intro ops
  induction ops with
  | nil => intro _ _ _ _ _ _ _ h; cases h
  | cons op ops ih =>
    intro ks x y last hb hbd hx hl h
    cases hb with
    | cons h0 h2 =>
      rename_i k ks
      have h1 : held w op.offer k.a < B128 ∧ held w op.ask k.a < B128 := by
        have := hbd k (.head _)
        rcases h0.dir with ⟨e0, e1⟩ | ⟨e0, e1⟩
        · rw [← e0, ← e1]; exact this
        · rw [← e0, ← e1]; exact this.symm
      obtain ⟨_, _, _, r, sp, cm, hp, _, hrest⟩ := h
      obtain ⟨_, _, _, _, h5, h6, h7, h8⟩ := (computeSwap_ok_iff h1.1 h1.2 hx).mp hp
      have hg := grossOf_le (held w op.offer k.a) (held w op.ask k.a) x
      have hr : r ≤ held w op.ask k.a := by omega
      cases ops with
      | nil =>
        cases h2
        cases hrest
        simp only [List.getLast?_singleton, Option.some.injEq] at hl
        subst hl
        exact ⟨by omega, k, .head _, hr⟩
      | cons op2 ops =>
        obtain ⟨h3, k', hk', h4⟩ := ih h2 (fun k' hk' => hbd k' (.tail _ hk')) (by omega) (by simpa using hl) hrest
        exact ⟨h3, k', .tail _ hk', h4⟩

theorem hopSites {c : Chain} (hc : c.Lawful) {w : World} (hw : Reachable c w) {fs : Factory.State} {ops : List SwapOp}
    {ks : List PairSite} (h : List.Forall₂ (fun op k => k.Sound c w ∧ k.Dir op.offer op.ask ∧
      ∀ info, Factory.queryPair c.api fs (op.offer, op.ask) = .ok info → info.contractAddr = k.a) ops ks) :
    List.Forall₂ (HopSite c w fs) ops ks :=
  h.imp fun _ _ hh => ⟨hh.1.ctx hc, hh.1.good hc hw, (addr_facts hc hw hh.1.pair).1, human_self hc hw hh.1.pair, hh.2.1, hh.2.2⟩

theorem legs_of {c : Chain} (hc : c.Lawful) {w : World} (hw : Reachable c w) {f : Addr} {fadm : Option Addr}
    {fs : Factory.State} (hf : w.contracts f = some ⟨fadm, .factory fs⟩) (hfr : c.api.resolve f = .ok f) {q : Querier}
    {ops : List SwapOp} {ks : List PairSite} {x y : Nat} (hks : List.Forall₂ (fun op k => k.Sound c w ∧ k.Dir op.offer op.ask ∧
      ∀ info, Factory.queryPair c.api fs (op.offer, op.ask) = .ok info → info.contractAddr = k.a) ops ks)
    (hfit : ∀ k ∈ ks, Fits k w) (hx : x < B128) : HopByHop (querier c q w) f ops ks x y ↔ Legs c fs w ops ks x y :=
  legs_at hw.tokensOk hf hfr (hopSites hc hw hks) hfit hx

theorem resold_of_connected {ops : List SwapOp} {last : SwapOp} (hcon : ops.IsChain fun a b => a.ask = b.offer)
    (hl : ops.getLast? = some last) : Resold ops last := by
  intro pre op post he hne
  cases post with
  | nil =>
    rw [he] at hl
    simp only [List.getLast?_append, List.getLast?_singleton, Option.some_or, Option.some.injEq] at hl
    exact absurd (by rw [hl]) hne
  | cons op2 post =>
    rw [he] at hcon
    have := (List.isChain_append.mp hcon).2.1
    exact ⟨op2, .head _, by rw [(List.isChain_cons_cons.mp this).1]⟩

theorem Quote.unique {v : World} : ∀ {ops : List SwapOp} {ks : List PairSite} {x y y' : Nat}, Quote v ops ks x y → Quote v ops ks x y' → y = y' := by
  intro ops
  induction ops with
  | nil =>
    intro ks x y y' h h'
    cases ks with
    | nil => exact h.symm.trans h'
    | cons => cases h
  | cons op ops ih =>
    intro ks x y y' h h'
    cases ks with
    | nil => cases h
    | cons k ks =>
      obtain ⟨r, sp, cm, h1, h2⟩ := h
      obtain ⟨r', sp', cm', h1', h2'⟩ := h'
      rw [h1] at h1'
      cases h1'
      exact ih h2 h2'

/-- The setting of a route at a moment `w` of a transaction at which `S` acts: what `OnRoute` says, and what is known of the contracts
and of `S` in reachable states. -/
structure RouteAt (c : Chain) (w : World) (S rou f t : Addr) (adm fadm : Option Addr) (s : Router.State)
    (fs : Factory.State) (ops : List SwapOp) (ks : List PairSite) (first last : SwapOp) (dst : Option Str) : Prop where
  law : c.Lawful
  tokens : TokensOk w
  valid : c.api.validate S = .ok S
  ne_rou : S ≠ rou
  ne_pairs : ∀ k ∈ ks, S ≠ k.a
  res : c.api.resolve rou = .ok rou
  router : w.contracts rou = some ⟨adm, .router s⟩
  names : c.api.human s.haloFactory = some f
  factory : w.contracts f = some ⟨fadm, .factory fs⟩
  site : List.Forall₂ (HopSite c w fs) ops ks
  nodup : (ks.map PairSite.a).Nodup
  con : ops.IsChain fun a b => a.ask = b.offer
  head : ops.head? = some first
  tail : ops.getLast? = some last
  offer : first.offer = .token t
  empty : ∀ op ∈ ops, held w op.offer rou = 0
  rcv_rou : dst.getD S ≠ rou
  rcv_pairs : ∀ k ∈ ks, dst.getD S ≠ k.a

namespace RouteAt

variable {c : Chain} {w : World} {S rou f t : Addr} {adm fadm : Option Addr} {s : Router.State}
    {fs : Factory.State} {ops : List SwapOp} {ks : List PairSite} {first last : SwapOp} {dst : Option Str}

theorem start (h : RouteAt c w S rou f t adm fadm s fs ops ks first last dst)
    {v : World} {x : Nat} (hx : Xfer (.token t) S rou x w v) :
    RouteSt c rou f (dst.getD S) adm fadm s fs v ops ks x ∧ ∀ k ∈ ks, ∀ i, held v i k.a = held w i k.a := by
  have hSr : S ≠ rou := h.ne_rou
  refine ⟨⟨hx.keep.contracts h.router (by intro _ h; cases h), hx.keep.contracts h.factory (by intro _ h; cases h), ?_,
    h.nodup, h.con, h.rcv_rou, ?_, ?_, ?_⟩, ?_⟩
  · exact h.site.imp fun _ _ hh => hh.keep hx.keep
  · intro hm
    obtain ⟨k, hk, e⟩ := List.mem_map.mp hm
    exact h.rcv_pairs k hk e.symm
  · intro op ho
    have hf := h.head
    rw [ho] at hf
    cases hf
    have := (hx.bal hSr).2
    rw [← h.offer, h.empty _ (List.mem_of_head? h.head)] at this
    omega
  · intro op0 ho op hop hne
    have hf := h.head
    rw [ho] at hf
    cases hf
    rw [hx.other _ (h.offer ▸ hne)]
    exact h.empty op hop
  · intro k hk i
    obtain ⟨op, _, hsk⟩ := forall₂_mem_right h.site hk
    refine hx.outside ?_ ?_ i
    · exact Ne.symm (h.ne_pairs k hk)
    · intro e
      obtain ⟨_, this⟩ := hsk.good.live
      rw [e, h.router] at this
      cases this

private theorem token (h : RouteAt c w S rou f t adm fadm s fs ops ks first last dst) :
    Honest w (.token t) ∧ c.api.resolve t = .ok t := by
  obtain ⟨hp, hfi⟩ := And.intro h.site h.head
  cases hp with
  | nil => cases hfi
  | cons h1 _ =>
    simp only [List.head?_cons, Option.some.injEq] at hfi
    subst hfi
    exact ⟨h.offer ▸ h1.good.honest h1.dir.fst, h1.ctx.resolve_of h1.dir.fst h.offer⟩

private theorem target (h : RouteAt c w S rou f t adm fadm s fs ops ks first last dst) :
    Honest w last.ask ∧ ∀ t, last.ask = .token t → c.api.resolve t = .ok t := by
  have hm : last ∈ ops := List.mem_of_getLast? h.tail
  obtain ⟨k, _, hk⟩ : ∃ k ∈ ks, HopSite c w fs last k := by
    have := h.site
    clear h
    induction this with
    | nil => cases hm
    | cons h1 _ ih =>
      rcases List.mem_cons.mp hm with rfl | hm
      · exact ⟨_, .head _, h1⟩
      · obtain ⟨k, hk, hh⟩ := ih hm
        exact ⟨k, .tail _ hk, hh⟩
  exact ⟨hk.good.honest hk.dir.snd, fun t e => hk.ctx.resolve_of hk.dir.snd e⟩

/-- The parts of a successful route transaction. -/
theorem parts (h : RouteAt c w S rou f t adm fadm s fs ops ks first last dst)
    {adv : Adv} {gas n : Nat} {w' : World} {x : Nat} {mn : Option Nat}
    (hr : run c adv gas w [.msg S (plain (.exec t (.send rou x (.executeSwapOperations ops mn dst)) []))] = .ok (n, w')) :
    (∀ d, dst = some d → c.api.validate d = .ok d) ∧ ∃ v n m y, Xfer (.token t) S rou x w v ∧
      run c adv n v ((Router.hopMsgs rou (dst.getD S) ops).map fun m => .msg rou (plain m)) = .ok (m, w') ∧
      Legs c fs w ops ks x y ∧ ∀ mm, mn = some mm → mm ≤ y := by
  have hres := h.res
  obtain ⟨hto, htr⟩ := h.token
  obtain ⟨k, v1, rfl, hx, hr⟩ := send_inv hto htr hr
  obtain ⟨hst, hks⟩ := h.start hx
  obtain ⟨n1, v, fs1, rfl, hs, hrun⟩ := run_cons_inv hr
  obtain ⟨r, hmv, hex, rfl⟩ := rou_exec hres hst.router (step_inv hs)
  rw [moveCoins_nil, eq_comm] at hmv
  subst hmv
  obtain ⟨hdst, last', hl', _, ⟨rfl, rfl⟩ | ⟨mm, prev, rfl, hprev, rfl⟩⟩ := Router.request_inv (.hook t x) hex
  · have hr1 : run c adv n1 v1 ((Router.hopMsgs rou (dst.getD S) ops).map fun m => .msg rou (plain m)) = .ok (n, w') := by
      simpa [frames, replyFrame, Function.comp_def] using hrun
    obtain ⟨y, hy⟩ := hst.needs hres h.names hr1
    exact ⟨hdst, v1, n1, n, y, hx, hr1, hy.congr fun k hk i => (hks k hk i).symm, by simp⟩
  · have hl := h.tail
    rw [hl'] at hl
    cases hl
    simp only [frames, replyFrame, List.append_nil, List.map_append, List.map_cons, List.map_nil, List.map_map] at hrun
    obtain ⟨n2, u, hr1, hr2⟩ := run_append.mp hrun
    obtain ⟨y, hy⟩ := hst.needs hres h.names hr1
    obtain ⟨e1, e2, _⟩ := hst.effect hres h.names h.tail hy.quote hr1
    have hu : u.contracts rou = some ⟨adm, .router s⟩ := e1.contracts hst.router (by intro _ h; cases h)
    obtain ⟨n3, u', fs2, rfl, hs2, hr3⟩ := run_cons_inv hr2
    obtain ⟨r2, hmv2, hx2, rfl⟩ := rou_exec hres hu (step_inv hs2)
    rw [moveCoins_nil] at hmv2
    subst hmv2
    simp only [Router.execute, Router.assertMinimumReceive, bind_eq_ok, pure_eq_ok, require_eq_ok, Prod.mk.injEq] at hx2
    obtain ⟨rcv, hrcv, bal, hbal, d, hd, _, hge, _, rfl⟩ := hx2
    obtain ⟨rfl, _⟩ := validate_eq_ok.mp hrcv
    have hto' := h.target.1
    have b1 := (queryPool_held (hx.keep.honest hto') hprev).1
    have b2 := (queryPool_held ((hx.keep.trans e1).honest hto') hbal).1
    simp only [frames, replyFrame, List.map_nil, List.append_nil, run_nil, Except.ok.injEq, Prod.mk.injEq] at hr3
    obtain ⟨_, rfl⟩ := hr3
    refine ⟨hdst, v1, n1, _, y, hx, hr1, hy.congr fun k hk i => (hks k hk i).symm, ?_⟩
    intro mm' e
    cases e
    change prev = held v1 last.ask _ at b1
    change bal = held _ last.ask _ at b2
    have : d = y := by
      unfold Uint128.checkedSub at hd
      split at hd
      · cases hd; omega
      · cases hd
    omega

/-- A route with priced legs and an attainable minimum goes through. -/
theorem goes (h : RouteAt c w S rou f t adm fadm s fs ops ks first last dst)
    (hfit : ∀ k ∈ ks, Fits k w) {mn : Option Nat}
    (hbig : ∀ m d, mn = some m → last.ask = .native d → ∀ k ∈ ks, w.bal d (dst.getD S) + w.bal d k.a < 2 ^ 128)
    (adv : Adv) (n : Nat) {x y : Nat} (hx0 : 0 < x) (hb : x ≤ held w (.token t) S)
    (hdst : ∀ d, dst = some d → c.api.validate d = .ok d) (hl : Legs c fs w ops ks x y)
    (hm : ∀ mm, mn = some mm → mm ≤ y) :
    ∃ n' w', run c adv (n + 4 * ops.length + 3) w
      [.msg S (plain (.exec t (.send rou x (.executeSwapOperations ops mn dst)) []))] = .ok (n', w') := by
  have hres := h.res
  have hSr := h.ne_rou
  have hSS : c.api.resolve S = .ok S := PairSite.resolve_of_validate h.valid
  obtain ⟨hto, htr⟩ := h.token
  obtain ⟨htg, htg2⟩ := h.target
  have hrcv : c.api.validate (dst.getD S) = .ok (dst.getD S) := by
    cases dst with
    | none => exact h.valid
    | some d => exact hdst d rfl
  have hv := h.tokens
  obtain ⟨tadm, st, hst⟩ := hto t rfl
  have hinv := hv _ _ _ hst
  rw [held_token hst] at hb
  have hle := hinv.le_supply S
  have hfits := hinv.fits
  have hxlt : x < B128 := by omega
  have hbnd : ∀ k ∈ ks, held w k.i0 k.a < B128 ∧ held w k.i1 k.a < B128 := fun k hk => (hfit k hk).lt hv
  obtain ⟨hylt, kl, hkl, hyk⟩ := legs_le h.site hbnd hxlt h.tail hl
  have hin : (HookMsg.executeSwapOperations ops mn dst).inRange = true := by
    cases mn with
    | none => rfl
    | some mm => have := hm mm rfl; simp only [HookMsg.inRange, optLt, decide_eq_true_eq]; omega
  have hxf := (xfer_token (v := w) (dst := rou) hst (Nat.ne_of_gt hx0) hb)
  have hs1 := step_token_of (adv := adv) (n := n + 4 * ops.length + 2) (sender := S) htr hst
    (by simp only [ExecMsg.inRange, decide_eq_true_eq]; exact hxlt)
    (Token.execute_send (blk := w.block) (hk := .executeSwapOperations ops mn dst) hinv (Nat.ne_of_gt hx0)
      (validate_of_resolve hres) hb)
  generalize hv1 : w.setState t tadm (.token { st with balances := Token.moveBal st.balances S rou x }) = v1 at hxf hs1
  have hv1' : TokensOk v1 := hv.step (step_inv hs1)
  obtain ⟨hrs, hks⟩ := h.start hxf
  -- the receiver's balance of the target stays within 128 bits
  have hkr : dst.getD S ≠ kl.a := h.rcv_pairs kl hkl
  have hsum : mn ≠ none → held v1 last.ask (dst.getD S) + y < B128 := by
    intro hne
    obtain ⟨mm, hmm⟩ := Option.ne_none_iff_exists'.mp hne
    refine held_add_lt hv1' hkr ?_ (b := kl.a) (by rw [hks kl hkl]; exact hyk)
    intro dn he
    have h1 := hbig mm dn hmm he kl hkl
    have h2 : held v1 (.native dn) (dst.getD S) = held w (.native dn) (dst.getD S) :=
      hxf.other _ (by simp) _
    change held v1 (.native dn) (dst.getD S) + y < B128
    rw [he] at hyk
    rw [h2]
    exact lt_of_le_of_lt (Nat.add_le_add_left hyk _) h1
  -- the router accepts the request
  have hq1 : ∀ q, mn ≠ none → last.ask.queryPool (querier c q v1) c.api (dst.getD S) = .ok (held v1 last.ask (dst.getD S)) :=
    fun q hne => queryPool_live (hxf.keep.honest htg) htg2 (PairSite.resolve_of_validate hrcv)
      (lt_of_le_of_lt (Nat.le_add_right _ _) (hsum hne))
  obtain ⟨⟨s1, r⟩, hex⟩ := (C34_hook_accepted_iff (api := c.api) (q := querier c (adv.query (n + 4 * ops.length + 1)) v1)
    (me := rou) (caller := t) (s := s) (S := S) (x := x) (ops := ops) (mn := mn) (dst := dst)).mpr
    ⟨h.valid, hdst, last, h.tail, resold_of_connected h.con h.tail, by
      cases mn with
      | none => exact .inl rfl
      | some mm => exact .inr ⟨_, hq1 _ (by simp)⟩⟩
  have hs2 := step_router_of (adv := adv) (n := n + 4 * ops.length + 1) (sender := t) hres hrs.router
    (by simp only [ExecMsg.inRange, Bool.and_eq_true, decide_eq_true_eq]; exact ⟨hxlt, hin⟩) hex
  obtain ⟨m, u, hnm, hrun⟩ := hrs.live adv hres h.names hrcv (n + 1) hv1'
    (fun k hk => by rw [hks k hk, hks k hk]; exact hbnd k hk) (hl.congr hks)
  rw [show n + 1 + 4 * ops.length = n + 4 * ops.length + 1 by omega] at hrun
  obtain ⟨_, last', hl', _, ⟨rfl, rfl⟩ | ⟨mm, prev, rfl, hprev, rfl⟩⟩ := Router.request_inv (.hook t x) hex
  · refine ⟨m, u, run_cons_of hs1 (run_cons_of hs2 ?_)⟩
    simpa [frames, replyFrame, Function.comp_def] using hrun
  · have hlast := h.tail
    rw [hl'] at hlast
    cases hlast
    obtain ⟨e1, e2, _⟩ := hrs.effect hres h.names h.tail (hl.congr hks).quote hrun
    have hp := hq1 (adv.query (n + 4 * ops.length + 1)) (by simp)
    change last.ask.queryPool _ _ _ = _ at hprev
    rw [hp] at hprev
    cases hprev
    obtain ⟨m', rfl⟩ : ∃ m', m = m' + 1 := ⟨m - 1, by omega⟩
    have hq2 := queryPool_live (c := c) (q := adv.query m') ((hxf.keep.trans e1).honest htg) htg2
      (PairSite.resolve_of_validate hrcv) (by rw [e2]; exact hsum (by simp))
    have hs3 := step_router_of (adv := adv) (n := m') (sender := rou) hres
      (e1.contracts hrs.router (by intro _ h; cases h)) (s' := s) (r := {})
      (m := .assertMinimumReceive last.ask (held v1 last.ask (dst.getD S)) mm (dst.getD S))
      (by
        have := hm mm rfl
        have := hsum (by simp)
        simp only [ExecMsg.inRange, Bool.and_eq_true, decide_eq_true_eq]
        omega)
      (by
        simp only [Router.execute, Router.assertMinimumReceive, bind_eq_ok, pure_eq_ok, require_eq_ok,
          Uint128.checkedSub_eq_ok]
        have := hm mm rfl
        exact ⟨_, hrcv, _, hq2, _, ⟨by omega, rfl⟩, (), by omega, trivial⟩)
    refine ⟨m', u, run_cons_of hs1 (run_cons_of hs2 ?_)⟩
    change run _ _ _ _ (_ ++ []) = _
    simp only [List.append_nil, frames, List.map_append, List.map_cons, List.map_nil, List.map_map, Function.comp_def]
    exact run_append.mpr ⟨m' + 1, u, hrun, run_cons_of hs3 run_nil⟩

/-- A route goes through exactly if it is quoted hop by hop and the quote reaches the minimum. -/
theorem iff (h : RouteAt c w S rou f t adm fadm s fs ops ks first last dst) (hfit : ∀ k ∈ ks, Fits k w) (mn : Option Nat)
    (hbig : ∀ m d, mn = some m → last.ask = .native d → ∀ k ∈ ks, w.bal d (dst.getD S) + w.bal d k.a < 2 ^ 128)
    (x : Nat) (adv : Adv) (q : Querier) :
    (∃ n n' w', run c adv n w [.msg S (plain (.exec t (.send rou x (.executeSwapOperations ops mn dst)) []))] = .ok (n', w')) ↔
      0 < x ∧ x ≤ held w (.token t) S ∧ (∀ d, dst = some d → c.api.validate d = .ok d) ∧
      ∃ y, HopByHop (querier c q w) f ops ks x y ∧ ∀ m, mn = some m → m ≤ y := by
  have hfr := h.law.resolve_human h.names
  constructor
  · rintro ⟨n, n', w', hrun⟩
    obtain ⟨h1, v, n, m, y, hx, _, h2, h3⟩ := h.parts hrun
    refine ⟨Nat.pos_of_ne_zero hx.pos, hx.le, h1, y, ?_, h3⟩
    exact (legs_at h.tokens h.factory hfr h.site hfit (lt_of_le_of_lt hx.le (held_lt h.tokens t S))).mpr h2
  · rintro ⟨h1, h2, h3, y, h4, h5⟩
    have hl := (legs_at h.tokens h.factory hfr h.site hfit (lt_of_le_of_lt h2 (held_lt h.tokens t S))).mp h4
    exact ⟨_, h.goes hfit hbig adv 0 h1 h2 h3 hl h5⟩

/-- What a route does: the receiver gets what the router quotes for it, the router keeps nothing of it, the sender loses the offer, and
nobody else but the pairs is concerned. -/
theorem done (h : RouteAt c w S rou f t adm fadm s fs ops ks first last dst) {q : Querier} {x y : Nat}
    (hq : Router.simulateSwapOperations c.api (querier c q w) s x ops = .ok y) {mn : Option Nat} {adv : Adv} {n n' : Nat} {w' : World}
    (hr : run c adv n w [.msg S (plain (.exec t (.send rou x (.executeSwapOperations ops mn dst)) []))] = .ok (n', w')) :
    x ≤ held w (.token t) S ∧ (∀ m, mn = some m → m ≤ y) ∧
    (∀ i, held w' i (dst.getD S) =
      held w i (dst.getD S) - (if dst.getD S = S ∧ i = .token t then x else 0) + (if i = last.ask then y else 0)) ∧
    (∀ op ∈ ops, held w' op.offer rou = 0) ∧ (∀ i, (∀ op ∈ ops, i ≠ op.offer) → held w' i rou = held w i rou) ∧
    (S ≠ dst.getD S → ∀ i, held w' i S = held w i S - if i = .token t then x else 0) ∧
    ∀ b, b ≠ S → b ≠ rou → b ≠ dst.getD S → b ∉ ks.map PairSite.a → ∀ i, held w' i b = held w i b := by
  have hfr := h.law.resolve_human h.names
  simp only [Router.simulateSwapOperations, bind_eq_ok, humanize_eq_ok, require_eq_ok] at hq
  obtain ⟨f', hf', _, _, hq⟩ := hq
  rw [h.names] at hf'
  cases hf'
  have hquote := Quote.of_sim h.factory hfr h.site hq
  obtain ⟨_, v, n, m, y', hx, hr, hl, hmin⟩ := h.parts hr
  obtain ⟨hst, hks⟩ := h.start hx
  have hSr := h.ne_rou
  cases hl.quote.unique hquote
  obtain ⟨_, e2, e3, e4, e5, e6⟩ := hst.effect h.res h.names h.tail (hl.congr hks).quote hr
  refine ⟨hx.le, hmin, fun i => ?_, e4, fun i hi => ?_, fun hS i => ?_, fun b h1 h2 h3 h4 i => ?_⟩
  · have e : held v i (dst.getD S) = held w i (dst.getD S) - (if dst.getD S = S ∧ i = .token t then x else 0) := by
      split
      · rename_i hh
        rw [hh.1, hh.2]
        exact (hx.bal hSr).1
      · rename_i hh
        by_cases hi : i = .token t
        · rw [hi, Nat.sub_zero]
          exact hx.outside (fun e => hh ⟨e, hi⟩) h.rcv_rou _
        · rw [hx.other i hi, Nat.sub_zero]
    rw [← e]
    split
    · rename_i hi
      rw [hi, e2]
    · rename_i hi
      rw [e3 i hi, Nat.add_zero]
  · rw [e5 i hi]
    refine hx.other i ?_ rou
    rw [← h.offer]
    exact hi first (List.mem_of_head? h.head)
  · rw [e6 S hSr hS (fun hm => by
      obtain ⟨k, hk, e⟩ := List.mem_map.mp hm
      exact h.ne_pairs k hk e.symm)]
    split
    · rename_i hi
      rw [hi]; exact (hx.bal hSr).1
    · rename_i hi
      rw [hx.other i hi, Nat.sub_zero]
  · rw [e6 b h2 h3 h4, hx.outside h1 h2]

end RouteAt

theorem OnRoute.at_ {c : Chain} (hc : c.Lawful) {w : World} (hw : Reachable c w) {S rou f t : Addr} {adm fadm : Option Addr}
    {s : Router.State} {fs : Factory.State} {ops : List SwapOp} {ks : List PairSite} {first last : SwapOp} {dst : Option Str}
    (h : OnRoute c w S rou f t adm fadm s fs ops ks first last dst) :
    RouteAt c w S rou f t adm fadm s fs ops ks first last dst where
  law := hc
  tokens := hw.tokensOk
  valid := h.user.2
  ne_rou := (addr_facts hc hw h.router).2 S h.user
  ne_pairs := fun k hk => by
    obtain ⟨op, _, hsk⟩ := forall₂_mem_right h.pairs hk
    exact (addr_facts hc hw hsk.1.pair).2 S h.user
  res := (addr_facts hc hw h.router).1
  router := h.router
  names := h.names
  factory := h.factory
  site := hopSites hc hw h.pairs
  nodup := h.nodup
  con := h.con
  head := h.head
  tail := h.tail
  offer := h.offer
  empty := h.empty
  rcv_rou := h.rcv_rou
  rcv_pairs := h.rcv_pairs

namespace OnRoute

variable {c : Chain} {w : World} {S rou f t : Addr} {adm fadm : Option Addr} {s : Router.State}
    {fs : Factory.State} {ops : List SwapOp} {ks : List PairSite} {first last : SwapOp} {dst : Option Str}

theorem start (hc : c.Lawful) (hw : Reachable c w) (h : OnRoute c w S rou f t adm fadm s fs ops ks first last dst)
    {v : World} {x : Nat} (hx : Xfer (.token t) S rou x w v) :
    RouteSt c rou f (dst.getD S) adm fadm s fs v ops ks x ∧ ∀ k ∈ ks, ∀ i, held v i k.a = held w i k.a :=
  (h.at_ hc hw).start hx

/-- The parts of a successful route transaction. -/
theorem parts (hc : c.Lawful) (hw : Reachable c w) (h : OnRoute c w S rou f t adm fadm s fs ops ks first last dst)
    {adv : Adv} {gas : Nat} {w' : World} {x : Nat} {mn : Option Nat}
    (hrun : runTx c adv gas w S (.exec t (.send rou x (.executeSwapOperations ops mn dst)) []) = .ok w') :
    (∀ d, dst = some d → c.api.validate d = .ok d) ∧ ∃ v n m y, Xfer (.token t) S rou x w v ∧
      run c adv n v ((Router.hopMsgs rou (dst.getD S) ops).map fun m => .msg rou (plain m)) = .ok (m, w') ∧
      Legs c fs w ops ks x y ∧ ∀ mm, mn = some mm → mm ≤ y := by
  obtain ⟨n, hr⟩ := runTx_inv hrun
  exact (h.at_ hc hw).parts hr

end OnRoute

/-- **C60.** A route transaction succeeds if and only if the amount is not zero, the sender has it, the receiver's address is
valid, the route is quoted hop by hop, and the quote reaches the minimum. (Native reserves, and the receiver's balance of a
native target if there is a minimum, are below `2^128`. `q` are the answers of other contracts at the time of the quotes.) -/
theorem C60_route_iff {c : Chain} (hc : c.Lawful) {w : World} (hw : Reachable c w) {S rou f t : Addr}
    {adm fadm : Option Addr} {s : Router.State} {fs : Factory.State} {ops : List SwapOp} {ks : List PairSite}
    {first last : SwapOp} {dst : Option Str} (h : OnRoute c w S rou f t adm fadm s fs ops ks first last dst)
    (hfit : ∀ k ∈ ks, Fits k w) (mn : Option Nat)
    (hbig : ∀ m d, mn = some m → last.ask = .native d → ∀ k ∈ ks, w.bal d (dst.getD S) + w.bal d k.a < 2 ^ 128)
    (x : Nat) (adv : Adv) (q : Querier) :
    (∃ gas w', runTx c adv gas w S (.exec t (.send rou x (.executeSwapOperations ops mn dst)) []) = .ok w') ↔
      0 < x ∧ x ≤ held w (.token t) S ∧ (∀ d, dst = some d → c.api.validate d = .ok d) ∧
      ∃ y, HopByHop (querier c q w) f ops ks x y ∧ ∀ m, mn = some m → m ≤ y := by
  rw [← (h.at_ hc hw).iff hfit mn hbig x adv q]
  constructor
  · rintro ⟨gas, w', hrun⟩
    obtain ⟨n, hr⟩ := runTx_inv hrun
    exact ⟨_, _, _, hr⟩
  · rintro ⟨n, hr⟩
    exact ⟨n, runTx_of hr⟩

/-- **C60.** Four messages per hop and three more are enough; the receiver then gets exactly the amount the router quotes. -/
theorem C60_route_live {c : Chain} (hc : c.Lawful) {w : World} (hw : Reachable c w) {S rou f t : Addr}
    {adm fadm : Option Addr} {s : Router.State} {fs : Factory.State} {ops : List SwapOp} {ks : List PairSite}
    {first last : SwapOp} {dst : Option Str} (h : OnRoute c w S rou f t adm fadm s fs ops ks first last dst)
    (hfit : ∀ k ∈ ks, Fits k w) {mn : Option Nat}
    (hbig : ∀ m d, mn = some m → last.ask = .native d → ∀ k ∈ ks, w.bal d (dst.getD S) + w.bal d k.a < 2 ^ 128)
    {x y : Nat} (adv : Adv) {gas : Nat} (hg : 4 * ops.length + 3 ≤ gas) {q : Querier} (h0 : 0 < x)
    (hb : x ≤ held w (.token t) S) (hdst : ∀ d, dst = some d → c.api.validate d = .ok d)
    (hq : HopByHop (querier c q w) f ops ks x y) (hm : ∀ m, mn = some m → m ≤ y) :
    Router.simulateSwapOperations c.api (querier c q w) s x ops = .ok y ∧
    ∃ w', runTx c adv gas w S (.exec t (.send rou x (.executeSwapOperations ops mn dst)) []) = .ok w' ∧
      ∀ i, held w' i (dst.getD S) =
        held w i (dst.getD S) - (if dst.getD S = S ∧ i = .token t then x else 0) + (if i = last.ask then y else 0) := by
  have hfr := hc.resolve_human h.names
  have hsim : Router.simulateSwapOperations c.api (querier c q w) s x ops = .ok y := by
    simp only [Router.simulateSwapOperations, bind_eq_ok, humanize_eq_ok, require_eq_ok]
    refine ⟨f, h.names, (), ?_, hq.simulated⟩
    have := h.head
    cases ops with
    | nil => cases this
    | cons => simp
  have hl := (legs_of hc hw h.factory hfr h.pairs hfit (lt_of_le_of_lt hb (held_lt hw.tokensOk t S))).mp hq
  obtain ⟨n, rfl⟩ : ∃ n, gas = n + 4 * ops.length + 3 := ⟨gas - (4 * ops.length + 3), by omega⟩
  obtain ⟨w', hr⟩ := runTx_of ((h.at_ hc hw).goes hfit hbig adv n h0 hb hdst hl hm)
  exact ⟨hsim, w', hr, (C36_route_pays_quote hc hw h.user h.router h.names h.factory h.pairs h.nodup h.con h.head h.tail
    h.offer h.empty h.rcv_rou h.rcv_pairs hsim hr).2⟩

/-- **C60.** A route transaction leaves the router with nothing of the assets sold on the route and otherwise as it was; it
takes from the sender nothing but the offered amount, and concerns no one but the sender, the receiver, the router and the
pairs. -/
theorem C60_route_leaves_nothing {c : Chain} (hc : c.Lawful) {w w' : World} (hw : Reachable c w) {S rou f t : Addr}
    {adm fadm : Option Addr} {s : Router.State} {fs : Factory.State} {ops : List SwapOp} {ks : List PairSite}
    {first last : SwapOp} {dst : Option Str} (h : OnRoute c w S rou f t adm fadm s fs ops ks first last dst)
    {mn : Option Nat} {x : Nat} {adv : Adv} {gas : Nat}
    (hrun : runTx c adv gas w S (.exec t (.send rou x (.executeSwapOperations ops mn dst)) []) = .ok w') :
    (∀ op ∈ ops, held w' op.offer rou = 0) ∧ (∀ i, (∀ op ∈ ops, i ≠ op.offer) → held w' i rou = held w i rou) ∧
    (S ≠ dst.getD S → ∀ i, held w' i S = held w i S - if i = .token t then x else 0) ∧
    ∀ b, b ≠ S → b ≠ rou → b ≠ dst.getD S → b ∉ ks.map PairSite.a → ∀ i, held w' i b = held w i b := by
  obtain ⟨_, v, n, m, y, hx, hr, hl, _⟩ := h.parts hc hw hrun
  obtain ⟨hst, hks⟩ := h.start hc hw hx
  have hSr := (addr_facts hc hw h.router).2 S h.user
  obtain ⟨_, _, _, e4, e5, e6⟩ := hst.effect (addr_facts hc hw h.router).1 h.names h.tail (hl.congr hks).quote hr
  refine ⟨e4, fun i hi => ?_, fun hS i => ?_, fun b h1 h2 h3 h4 i => ?_⟩
  · rw [e5 i hi]
    refine hx.other i ?_ rou
    rw [← h.offer]
    exact hi first (List.mem_of_head? h.head)
  · rw [e6 S hSr hS (fun hm => by
      obtain ⟨k, hk, e⟩ := List.mem_map.mp hm
      obtain ⟨op, _, hsk⟩ := forall₂_mem_right h.pairs hk
      exact (addr_facts hc hw hsk.1.pair).2 S h.user e.symm)]
    split
    · rename_i hi
      rw [hi]; exact (hx.bal hSr).1
    · rename_i hi
      rw [hx.other i hi, Nat.sub_zero]
  · rw [e6 b h2 h3 h4, hx.outside h1 h2]

/-! ## The hypotheses can be met -/

namespace Demo

theorem lookAB {info : PairInfo} (h : Factory.queryPair chain.api (facState deployed fac) (.token tA, .token tB) = .ok info) :
    info.contractAddr = pAB := by
  have e : val (Factory.queryPair chain.api (facState deployed fac) (.token tA, .token tB)) = some info := by rw [h]; rfl
  have e2 : (val (Factory.queryPair chain.api (facState deployed fac) (.token tA, .token tB))).map
    PairInfo.contractAddr = some pAB := by decide +kernel
  rw [e] at e2; exact Option.some.inj e2

theorem lookBC {info : PairInfo} (h : Factory.queryPair chain.api (facState deployed fac) (.token tB, .token tC) = .ok info) :
    info.contractAddr = pBC := by
  have e : val (Factory.queryPair chain.api (facState deployed fac) (.token tB, .token tC)) = some info := by rw [h]; rfl
  have e2 : (val (Factory.queryPair chain.api (facState deployed fac) (.token tB, .token tC))).map
    PairInfo.contractAddr = some pBC := by decide +kernel
  rw [e] at e2; exact Option.some.inj e2

/-- From A over B to C. -/
def viaB : List SwapOp := [⟨.token tA, .token tB⟩, ⟨.token tB, .token tC⟩]

theorem viaB_pairs : List.Forall₂ (fun (op : SwapOp) (k : PairSite) => k.Sound chain deployed ∧ k.Dir op.offer op.ask ∧
    ∀ info, Factory.queryPair chain.api (facState deployed fac) (op.offer, op.ask) = .ok info → info.contractAddr = k.a)
    viaB [siteAB, siteBC] :=
  .cons ⟨sound_AB, .inl ⟨rfl, rfl⟩, fun _ h => lookAB h⟩ (.cons ⟨sound_BC, .inl ⟨rfl, rfl⟩, fun _ h => lookBC h⟩ .nil)

theorem viaB_route : OnRoute chain deployed user rou fac tA none none ⟨fac⟩ (facState deployed fac) viaB [siteAB, siteBC]
    ⟨.token tA, .token tB⟩ ⟨.token tB, .token tC⟩ (some user2) :=
  ⟨isUser_user, rouAt_eq (p := (none, ⟨fac⟩)) (by decide +kernel), rfl, facState_eq (a := fac) (by decide +kernel),
    viaB_pairs, by decide +kernel, by decide +kernel, rfl, rfl, rfl, by decide +kernel, by decide +kernel,
    by decide +kernel⟩

theorem viaB_fits : ∀ k ∈ [siteAB, siteBC], Fits k deployed := by
  intro k hk
  simp only [List.mem_cons, List.not_mem_nil, or_false] at hk
  rcases hk with rfl | rfl <;> exact fits_of rfl rfl _

/-- 1000 A are quoted as 1813 B, which are quoted as 3060 C. -/
theorem viaB_quotes : HopByHop (querier chain (q 0 0 0) deployed) fac viaB [siteAB, siteBC] 1000 3060 := by
  have h1 : ((val ((querier chain (q 0 0 0) deployed).pairInfo fac (.token tA, .token tB))).isSome) = true := by
    decide +kernel
  have h2 : ((val ((querier chain (q 0 0 0) deployed).pairInfo fac (.token tB, .token tC))).isSome) = true := by
    decide +kernel
  obtain ⟨i1, h1⟩ := Option.isSome_iff_exists.mp h1
  obtain ⟨i2, h2⟩ := Option.isSome_iff_exists.mp h2
  have hf : deployed.contracts fac = some ⟨none, .factory (facState deployed fac)⟩ := facState_eq (by decide +kernel)
  exact .hop (t := tA) (quote := ⟨1813, 182, 5⟩) (by decide) rfl (val_eq h1) (lookAB (pairInfo_eq hf rfl (val_eq h1)))
    (val_eq (by decide +kernel)) ⟨by decide +kernel, by decide +kernel, trivial⟩ (.hop (t := tB) (quote := ⟨3060, 557, 9⟩) (by decide) rfl (val_eq h2)
      (lookBC (pairInfo_eq hf rfl (val_eq h2))) (val_eq (by decide +kernel)) ⟨by decide +kernel, by decide +kernel, trivial⟩ (.done _))

/-- The route goes through with a minimum of 3060, whatever other contracts do. -/
example (adv : Adv) : ∃ w', runTx chain adv 11 deployed user
    (.exec tA (.send rou 1000 (.executeSwapOperations viaB (some 3060) (some user2))) []) = .ok w' :=
  have := (C60_route_live lawful deployed_reachable viaB_route viaB_fits (mn := some 3060) (fun _ _ _ h => nomatch h) adv
    (gas := 11) (by decide) (by decide) (by decide +kernel) (by decide +kernel) viaB_quotes (by simp)).2
  this.imp fun _ h => h.1

example := C60_route_leaves_nothing lawful deployed_reachable viaB_route (runs_one routed_run)

/-- With a minimum of 3061 it does not. -/
example (adv : Adv) : ¬ ∃ gas w', runTx chain adv gas deployed user
    (.exec tA (.send rou 1000 (.executeSwapOperations viaB (some 3061) (some user2))) []) = .ok w' := by
  intro h
  obtain ⟨_, _, _, y, hy, hm⟩ := (C60_route_iff lawful deployed_reachable viaB_route viaB_fits (some 3061)
    (fun _ _ _ h => nomatch h) 1000 adv (q 0 0 0)).mp h
  have e := hy.simulated
  rw [viaB_quotes.simulated] at e
  cases e
  exact absurd (hm _ rfl) (by decide)

/-- 3000 C are said to cost 973 A, which buy 2995 C. -/
example : 2995 ≤ 3000 :=
  C59_reverse_route lawful deployed_reachable (f := fac) (s := ⟨fac⟩) rfl (facState_eq (a := fac) (by decide +kernel)) viaB_pairs
    (q := q 0 0 0) (q' := q 0 0 0) (y := 3000) (x := 973) (x' := 973) (by decide) (val_eq (by decide +kernel)) (Nat.le_refl _)
    (val_eq (by decide +kernel))

/-- 1813 B for 999 or 1000 A: the pair names 999, a swap of 1000 returns 1813. -/
example := C08_reverse_query lawful deployed_reachable sound_AB (t := tA) (j := .token tB) (.inl ⟨rfl, rfl⟩) (q := q 0 0 0)
  (y := 1813) (by decide) (quote := ⟨999, 180, 5⟩) (val_eq (by decide +kernel)) isUser_user (by decide) leg1_run

end Demo

open Demo in
/-- **C59**, the other way round, is false of the code: on a deployed exchange a route's reverse quote (973 A for 3000 C) is not
enough to buy the requested amount, and a transaction that offers the quoted amount and insists on what was asked for fails. -/
theorem C59_reverse_quote_falls_short : ∃ x y, y < 2 ^ 128 ∧ Reachable chain deployed ∧
    Router.reverseSimulateSwapOperations chain.api (querier chain (q 0 0 0) deployed) ⟨fac⟩ y viaB = .ok x ∧
    x ≤ held deployed (.token tA) user ∧
    ∀ adv, ¬ ∃ gas w', runTx chain adv gas deployed user
      (.exec tA (.send rou x (.executeSwapOperations viaB (some y) (some user2))) []) = .ok w' := by
  refine ⟨973, 3000, by decide, deployed_reachable, val_eq (by decide +kernel), by decide +kernel, fun adv h => ?_⟩
  obtain ⟨_, _, _, y, hy, hm⟩ := (C60_route_iff lawful deployed_reachable viaB_route viaB_fits (some 3000)
    (fun _ _ _ h => nomatch h) 973 adv (q 0 0 0)).mp h
  have e := hy.simulated
  have e2 : Router.simulateLoop (querier chain (q 0 0 0) deployed) fac viaB 973 = .ok 2995 := val_eq (by decide +kernel)
  rw [e2] at e
  cases e
  exact absurd (hm _ rfl) (by decide)

end Halo
