import Verif.Props.Pool
import Verif.Props.Registry
import Verif.Lemmas.RouterL
/-! # Quotes and the router (C07, C32, C34, C35, C36) -/

namespace Halo
open _root_.Halo.Spec

theorem addr_facts {c : Chain} (hc : c.Lawful) {w : World} (hw : Reachable c w) {a : Addr} {k : Contract}
    (h : w.contracts a = some k) : c.api.resolve a = .ok a ∧ ∀ u, c.IsUser u → u ≠ a := by
  obtain ⟨n, _, rfl⟩ := hw.sane.at_addr a k h
  obtain ⟨b, h1, h2⟩ := hc.addr_valid n
  exact ⟨resolve_eq_ok.mpr ⟨b, h1, h2⟩, fun u hu e => hu.1 n e.symm⟩

theorem human_self {c : Chain} (hc : c.Lawful) {w : World} (hw : Reachable c w) {a : Addr} {adm : Option Addr}
    {s : Pair.State} (h : w.contracts a = some ⟨adm, .pair s⟩) : c.api.human s.contractAddr = some a := by
  have h1 := hw.sane.addr a adm s h
  obtain ⟨b, h2, h3⟩ := resolve_eq_ok.mp (addr_facts hc hw h).1
  rw [h1] at h2
  cases h2
  exact h3

/-! ## C07 -/


namespace PairSite
variable {c : Chain} {k : PairSite}

theorem Good.quoted {v : World} (hg : k.Good v) (hx : k.Ctx c) (hra : c.api.resolve k.a = .ok k.a)
    (hh : c.api.human k.s.contractAddr = some k.a) {i j : AssetInfo} (hd : k.Dir i j) {q : Querier} {x : Nat} {quote : SimResp}
    (hq : (querier c q v).simulate k.a ⟨i, x⟩ = .ok quote) :
    held v i k.a < B128 ∧ held v j k.a < B128 ∧
      Pair.computeSwap (held v i k.a) (held v j k.a) x = .ok (quote.amount, quote.spread, quote.commission) := by
  simp only [querier, lookState, bind_eq_ok, okOr_eq_ok, pure_eq_ok, hra, Except.ok.injEq] at hq
  obtain ⟨_, ⟨_, rfl, _, h3, rfl⟩, hs⟩ := hq
  rw [hg.pair] at h3
  cases h3
  simp only [chkSim, bind_eq_ok, require_eq_ok, pure_eq_ok] at hs
  obtain ⟨_, hs, _, _, rfl⟩ := hs
  exact hg.simulated' hx hh hd hs

/-- What a swap does that was quoted just before. -/
theorem Good.quote_paid {v v' : World} (hg : k.Good v) (hx : k.Ctx c) (hra : c.api.resolve k.a = .ok k.a)
    (hh : c.api.human k.s.contractAddr = some k.a) {t : Addr} {j : AssetInfo} (hd : k.Dir (.token t) j) {q : Querier} {x : Nat}
    {quote : SimResp} (hq : (querier c q v).simulate k.a ⟨.token t, x⟩ = .ok quote) {adv : Adv} {n n' : Nat} {S : Addr}
    (hSr : c.api.resolve S = .ok S) (hSa : S ≠ k.a) {bp ms : Option Nat} {dst : Option Str}
    (hr : Halo.run c adv n v [.msg S (plain (.exec t (.send k.a x (.swap bp ms dst)) []))] = .ok (n', v')) :
    x ≤ held v (.token t) S ∧ held v' (.token t) S = held v (.token t) S - x ∧
    held v' (.token t) k.a = held v (.token t) k.a + x ∧
    (dst ≠ some k.a → quote.amount ≤ held v j k.a ∧ held v' j k.a = held v j k.a - quote.amount ∧
      held v' j (dst.getD S) = held v j (dst.getD S) + quote.amount) ∧
    (∀ b, b ≠ S → b ≠ k.a → held v' (.token t) b = held v (.token t) b) ∧
    (∀ b, b ≠ dst.getD S → b ≠ k.a → held v' j b = held v j b) ∧
    (∀ i b, i ≠ .token t → i ≠ j → held v' i b = held v i b) := by
  have hne := hd.ne hx
  obtain ⟨ret, sp, cm, v1, hp, hx1, hx2⟩ := hg.swap_exact hx hra hSr hSa hd hr
  rw [(hg.quoted hx hra hh hd hq).2.2] at hp
  simp only [Except.ok.injEq, Prod.mk.injEq] at hp
  obtain ⟨rfl, -, -⟩ := hp
  obtain ⟨b1, b2⟩ := hx1.bal hSa
  have o1 : ∀ i, i ≠ .token t → ∀ b, held v1 i b = held v i b := fun i hi b => hx1.other i hi b
  rcases hx2 with ⟨h0, rfl⟩ | ⟨_, hx2⟩
  · refine ⟨hx1.le, b1, b2, fun _ => ?_, fun b h1 h2 => hx1.rest b h1 h2, fun b _ _ => o1 j (Ne.symm hne) b,
      fun i b h1 _ => o1 i h1 b⟩
    rw [h0, o1 j (Ne.symm hne), o1 j (Ne.symm hne)]
    exact ⟨Nat.zero_le _, rfl, rfl⟩
  · have o2 : ∀ b, held v' (.token t) b = held v1 (.token t) b := hx2.other _ hne
    refine ⟨hx1.le, (o2 S).trans b1, (o2 k.a).trans b2, fun hdst => ?_, fun b h1 h2 => (o2 b).trans (hx1.rest b h1 h2),
      fun b h1 h2 => (hx2.rest b h2 h1).trans (o1 j (Ne.symm hne) b),
      fun i b h1 h2 => (hx2.other i h2 b).trans (o1 i h1 b)⟩
    have hne2 : k.a ≠ dst.getD S := by
      cases dst with
      | none => exact Ne.symm hSa
      | some d => intro e; exact hdst (congrArg some (e.symm : d = k.a))
    obtain ⟨c1, c2⟩ := hx2.bal hne2
    have := hx2.le
    rw [o1 j (Ne.symm hne)] at this c1 c2
    exact ⟨this, c1, c2⟩

end PairSite

theorem quote_price' {c : Chain} (hc : c.Lawful) {w : World} (hw : Reachable c w) {k : PairSite}
    (hk : k.Sound c w) {i j : AssetInfo} (hd : k.Dir i j) {q : Querier} {x : Nat} {quote : SimResp}
    (hq : (querier c q w).simulate k.a ⟨i, x⟩ = .ok quote) :
    held w i k.a < B128 ∧ held w j k.a < B128 ∧
      Pair.computeSwap (held w i k.a) (held w j k.a) x = .ok (quote.amount, quote.spread, quote.commission) :=
  (hk.good hc hw).quoted (hk.ctx hc) (addr_facts hc hw hk.pair).1 (human_self hc hw hk.pair) hd hq

theorem quote_price {c : Chain} (hc : c.Lawful) {w : World} (hw : Reachable c w) {k : PairSite}
    (hk : k.Sound c w) {i j : AssetInfo} (hd : k.Dir i j) {q : Querier} {x : Nat} {quote : SimResp}
    (hq : (querier c q w).simulate k.a ⟨i, x⟩ = .ok quote) :
    Pair.computeSwap (held w i k.a) (held w j k.a) x = .ok (quote.amount, quote.spread, quote.commission) :=
  (quote_price' hc hw hk hd hq).2.2

/-- C07: a swap sent right after a simulation query takes exactly the offer from the sender and pays the receiver
exactly the quoted amount out of the pair; nothing else moves. (`w` is the state in which the quote was given and in
which the transaction starts. A pair told to pay itself keeps everything.) -/
theorem C07_quote_is_paid {c : Chain} (hc : c.Lawful) {w w' : World} (hw : Reachable c w) {k : PairSite}
    (hk : k.Sound c w) {t : Addr} {j : AssetInfo} (hd : k.Dir (.token t) j) {q : Querier} {x : Nat} {quote : SimResp}
    (hq : (querier c q w).simulate k.a ⟨.token t, x⟩ = .ok quote) {adv : Adv} {gas : Nat} {S : Addr} (hS : c.IsUser S)
    {bp ms : Option Nat} {dst : Option Str}
    (h : runTx c adv gas w S (.exec t (.send k.a x (.swap bp ms dst)) []) = .ok w') :
    x ≤ held w (.token t) S ∧ held w' (.token t) S = held w (.token t) S - x ∧
    held w' (.token t) k.a = held w (.token t) k.a + x ∧
    (dst ≠ some k.a → quote.amount ≤ held w j k.a ∧ held w' j k.a = held w j k.a - quote.amount ∧
      held w' j (dst.getD S) = held w j (dst.getD S) + quote.amount) ∧
    (∀ b, b ≠ S → b ≠ k.a → held w' (.token t) b = held w (.token t) b) ∧
    (∀ b, b ≠ dst.getD S → b ≠ k.a → held w' j b = held w j b) ∧
    (∀ i b, i ≠ .token t → i ≠ j → held w' i b = held w i b) := by
  obtain ⟨n, hr⟩ := runTx_inv h
  exact (hk.good hc hw).quote_paid (hk.ctx hc) (addr_facts hc hw hk.pair).1 (human_self hc hw hk.pair) hd hq
    (PairSite.resolve_of_validate hS.2) ((addr_facts hc hw hk.pair).2 S hS) hr

/-- C07: the pair also reports the three quoted numbers. `w1` is the state in which the pair is called: the state `w` of
the quote after `x` of the token arrived. -/
theorem C07_quote_is_reported {c : Chain} (hc : c.Lawful) {w w1 : World} (hw : Reachable c w) {k : PairSite}
    (hk : k.Sound c w) {t : Addr} {j : AssetInfo} (hd : k.Dir (.token t) j) {q q1 : Querier} {x : Nat} {quote : SimResp}
    (hq : (querier c q w).simulate k.a ⟨.token t, x⟩ = .ok quote) {S : Addr} {bp ms : Option Nat} {dst : Option Str}
    (hw1 : ∀ b, b ≠ t → w1.contracts b = w.contracts b) (hh : Honest w1 (.token t))
    (hbal : held w1 (.token t) k.a = held w (.token t) k.a + x ∧ held w1 j k.a = held w j k.a)
    {s' : Pair.State} {r : Response}
    (h : Pair.execute c.api (querier c q1 w1) k.a k.s t [] (.receive S x (.swap bp ms dst)) = .ok (s', r)) :
    r.events = [.swap S (dst.getD S) (.token t) j x quote.amount quote.spread quote.commission] ∧
    r.messages = if quote.amount = 0 then [] else [plain (Asset.intoMsg ⟨j, quote.amount⟩ (dst.getD S))] := by
  have hx := hk.ctx hc
  have hg := hk.good hc hw
  have keep : ∀ i, Honest w i → Honest w1 i := by
    intro i hi t' ht'
    by_cases e : t' = t
    · subst e; exact hh t' rfl
    · rw [hw1 t' e]; exact hi t' ht'
  have hg1 : k.Good w1 := by
    refine ⟨?_, keep _ hg.asset0, keep _ hg.asset1, ?_⟩
    · rw [hw1 k.a (by rintro e; obtain ⟨adm, st, h1⟩ := hg.honest hd.fst t rfl; rw [← e, hg.pair] at h1; cases h1)]
      exact hg.live
    · rw [hw1 k.lt (by rintro rfl; exact hx.ne_lp hd.fst rfl)]
      exact hg.lp
  obtain ⟨_, _, ret, sp, cm, _, hp, rfl⟩ := hg1.swap_resp hx hd (sender := S) h
  rw [hbal.1, hbal.2, Nat.add_sub_cancel, quote_price hc hw hk hd hq] at hp
  simp only [Except.ok.injEq, Prod.mk.injEq] at hp
  obtain ⟨rfl, rfl, rfl⟩ := hp
  refine ⟨rfl, ?_⟩
  by_cases h0 : quote.amount = 0 <;> simp [h0]

/-! ## C34 -/

/-- Whatever a hop other than for the final target buys is sold again later on. Assets are compared by their printed
form, as the router does. -/
def Resold (ops : List SwapOp) (last : SwapOp) : Prop :=
  ∀ pre op post, ops = pre ++ op :: post → op.ask.toStr ≠ last.ask.toStr → ∃ op' ∈ post, op'.offer.toStr = op.ask.toStr

private theorem mem_keyRemove {k k' : Str} {m : List Str} : k' ∈ Router.keyRemove k m ↔ k' ∈ m ∧ k' ≠ k := by
  simp [Router.keyRemove]

private theorem mem_keyInsert {k k' : Str} {m : List Str} : k' ∈ Router.keyInsert k m ↔ k' = k ∨ k' ∈ m := by
  simp only [Router.keyInsert, List.mem_cons, mem_keyRemove]
  by_cases h : k' = k <;> simp [h]

private theorem nodup_keys : ∀ (ops : List SwapOp) (m : List Str), m.Nodup → (Router.askKeys ops m).Nodup := by
  intro ops
  induction ops with
  | nil => intro m h; exact h
  | cons op ops ih =>
    intro m h
    refine ih _ (List.nodup_cons.mpr ⟨?_, ?_⟩)
    · simp [mem_keyRemove]
    · exact (h.filter _).filter _

private theorem mem_keys (k : Str) : ∀ (ops : List SwapOp) (m : List Str), k ∈ Router.askKeys ops m ↔
    (k ∈ m ∧ ∀ op ∈ ops, op.offer.toStr ≠ k) ∨
      ∃ pre op post, ops = pre ++ op :: post ∧ op.ask.toStr = k ∧ ∀ op' ∈ post, op'.offer.toStr ≠ k := by
  intro ops
  induction ops with
  | nil => intro m; simp [Router.askKeys]
  | cons op ops ih =>
    intro m
    rw [Router.askKeys, ih, mem_keyInsert, mem_keyRemove]
    constructor
    · rintro (⟨h1 | ⟨h1, h2⟩, h3⟩ | ⟨pre, o, post, rfl, h1, h2⟩)
      · exact .inr ⟨[], op, ops, rfl, h1.symm, h3⟩
      · refine .inl ⟨h1, fun o ho => ?_⟩
        rcases List.mem_cons.mp ho with rfl | ho
        · exact Ne.symm h2
        · exact h3 o ho
      · exact .inr ⟨op :: pre, o, post, rfl, h1, h2⟩
    · rintro (⟨h1, h2⟩ | ⟨pre, o, post, he, h1, h2⟩)
      · exact .inl ⟨.inr ⟨h1, Ne.symm (h2 op (.head _))⟩, fun o ho => h2 o (.tail _ ho)⟩
      · cases pre with
        | nil =>
          cases he
          exact .inl ⟨.inl h1.symm, h2⟩
        | cons p pre =>
          cases he
          exact .inr ⟨pre, o, post, rfl, h1, h2⟩

/-- The check on the operations, in terms of the list alone. -/
theorem C34_check_iff {ops : List SwapOp} {last : SwapOp} (hl : ops.getLast? = some last) :
    Router.assertOperations ops = .ok () ↔ Resold ops last := by
  have hmem : last.ask.toStr ∈ Router.askKeys ops [] := by
    rw [mem_keys]
    obtain ⟨pre, rfl⟩ := List.getLast?_eq_some_iff.mp hl
    exact .inr ⟨pre, last, [], rfl, rfl, by simp⟩
  have hnd := nodup_keys ops [] List.nodup_nil
  have key : (Router.askKeys ops []).length = 1 ↔ ∀ k ∈ Router.askKeys ops [], k = last.ask.toStr := by
    constructor
    · intro h k hk
      obtain ⟨a, ha⟩ := List.length_eq_one_iff.mp h
      rw [ha, List.mem_singleton] at hk hmem
      exact hk.trans hmem.symm
    · intro h
      cases hks : Router.askKeys ops [] with
      | nil => rw [hks] at hmem; cases hmem
      | cons a l =>
        rw [hks] at h hnd
        cases l with
        | nil => rfl
        | cons b l =>
          have h1 := h a (by simp)
          have h2 := h b (by simp)
          rw [h1, h2] at hnd
          simp at hnd
  rw [Router.assertOperations, require_eq_ok, key]
  constructor
  · intro h pre op post he hne
    by_contra hno
    refine hne (h _ ((mem_keys _ _ _).mpr (.inr ⟨pre, op, post, he, rfl, fun o ho e => hno ⟨o, ho, e⟩⟩)))
  · intro h k hk
    rcases (mem_keys _ _ _).mp hk with ⟨h1, _⟩ | ⟨pre, op, post, he, rfl, h2⟩
    · cases h1
    · by_contra hne
      obtain ⟨o, ho, e⟩ := h pre op post he hne
      exact h2 o ho e

private theorem ops_iff {api : Api} {q : Querier} {me : Addr} {s : Router.State} {S : Addr} {ops : List SwapOp}
    {mn : Option Nat} {dst : Option Addr} :
    (∃ res, Router.executeSwapOperations api q me s S ops mn dst = .ok res) ↔
      ∃ last, ops.getLast? = some last ∧ Resold ops last ∧
        (mn = none ∨ ∃ b, last.ask.queryPool q api (dst.getD S) = .ok b) := by
  constructor
  · rintro ⟨⟨s', r⟩, h⟩
    simp only [Router.executeSwapOperations, bind_eq_ok, okOr_eq_ok] at h
    obtain ⟨last, h1, _, h2, h⟩ := h
    refine ⟨last, h1, (C34_check_iff h1).mp h2, ?_⟩
    cases mn with
    | none => exact .inl rfl
    | some m =>
      simp only [bind_eq_ok] at h
      obtain ⟨b, hb, _⟩ := h
      exact .inr ⟨b, hb⟩
  · rintro ⟨last, h1, h2, h3⟩
    have h2 := (C34_check_iff h1).mpr h2
    cases mn with
    | none => exact ⟨_, by simp only [Router.executeSwapOperations, h1, okOr, h2, ok_bind]; rfl⟩
    | some m =>
      rcases h3 with h3 | ⟨b, hb⟩
      · cases h3
      · exact ⟨_, by simp only [Router.executeSwapOperations, h1, okOr, h2, ok_bind, SwapOp.target, hb]; rfl⟩

/-- C34: the router accepts a list of operations, sent directly by `sender`, exactly when it is not empty, everything
bought on the way is sold again later, and — besides the route — the receiver is a valid address and, if a minimum is
asked for, their balance of the target can be read. -/
theorem C34_accepted_iff {api : Api} {q : Querier} {me : Addr} {s : Router.State} {sender : Addr} {ops : List SwapOp}
    {mn : Option Nat} {dst : Option Str} :
    (∃ res, Router.execute api q me s sender (.executeSwapOperations ops mn dst) = .ok res) ↔
      (∀ d, dst = some d → api.validate d = .ok d) ∧
      ∃ last, ops.getLast? = some last ∧ Resold ops last ∧
        (mn = none ∨ ∃ b, last.ask.queryPool q api (dst.getD sender) = .ok b) := by
  rw [← ops_iff (me := me) (s := s)]
  simp only [Router.execute, bind_eq_ok, Pair.optValidate_eq_ok]
  constructor
  · rintro ⟨res, d, ⟨rfl, hv⟩, h⟩
    exact ⟨hv, res, h⟩
  · rintro ⟨hv, res, h⟩
    exact ⟨res, dst, ⟨rfl, hv⟩, h⟩

/-- C34: the same for operations that arrive with tokens. -/
theorem C34_hook_accepted_iff {api : Api} {q : Querier} {me caller : Addr} {s : Router.State} {S : Str} {x : Nat}
    {ops : List SwapOp} {mn : Option Nat} {dst : Option Str} :
    (∃ res, Router.execute api q me s caller (.receive S x (.executeSwapOperations ops mn dst)) = .ok res) ↔
      api.validate S = .ok S ∧ (∀ d, dst = some d → api.validate d = .ok d) ∧
      ∃ last, ops.getLast? = some last ∧ Resold ops last ∧
        (mn = none ∨ ∃ b, last.ask.queryPool q api (dst.getD S) = .ok b) := by
  rw [← ops_iff (me := me) (s := s)]
  simp only [Router.execute, Router.receiveCw20, bind_eq_ok, Pair.optValidate_eq_ok]
  constructor
  · rintro ⟨res, S', hS, d, ⟨rfl, hv⟩, h⟩
    obtain ⟨rfl, _⟩ := validate_eq_ok.mp hS
    exact ⟨hS, hv, res, h⟩
  · rintro ⟨hS, hv, res, h⟩
    exact ⟨res, S, hS, dst, ⟨rfl, hv⟩, h⟩

/-- When printed forms identify the assets of the route, the condition is about the assets themselves. -/
theorem C34_assets {ops : List SwapOp} {last : SwapOp} (hl : ops.getLast? = some last)
    (hinj : ∀ a ∈ ops, ∀ b ∈ ops, (a.ask.toStr = b.offer.toStr → a.ask = b.offer) ∧
      (a.ask.toStr = b.ask.toStr → a.ask = b.ask)) :
    Resold ops last ↔ ∀ pre op post, ops = pre ++ op :: post → op.ask ≠ last.ask → ∃ op' ∈ post, op'.offer = op.ask := by
  have hlast : last ∈ ops := List.mem_of_getLast? hl
  constructor
  · intro h pre op post he hne
    have hop : op ∈ ops := by rw [he]; simp
    obtain ⟨o, ho, e⟩ := h pre op post he fun e => hne ((hinj op hop last hlast).2 e)
    exact ⟨o, ho, ((hinj op hop o (by rw [he]; simp [ho])).1 e.symm).symm⟩
  · intro h pre op post he hne
    obtain ⟨o, ho, e⟩ := h pre op post he fun e => hne (by rw [e])
    exact ⟨o, ho, by rw [e]⟩

/-- Accepted: a straight route, and a detour that ends in the same asset twice; refused: a hop whose output nobody uses. -/
example : Resold [⟨.token [1], .token [2]⟩, ⟨.token [2], .token [3]⟩] ⟨.token [2], .token [3]⟩ ∧
    Resold [⟨.token [1], .token [3]⟩, ⟨.token [2], .token [3]⟩] ⟨.token [2], .token [3]⟩ ∧
    ¬ Resold [⟨.token [1], .token [2]⟩, ⟨.token [4], .token [3]⟩] ⟨.token [4], .token [3]⟩ := by
  refine ⟨(C34_check_iff rfl).mp rfl, (C34_check_iff rfl).mp rfl, fun h => ?_⟩
  have := (C34_check_iff rfl).mpr h
  exact absurd this (by decide)

/-! ## C35 -/

/-- C35: the messages of an accepted route: one per operation, in order; the receiver is named only in the last, so that
all other outputs stay with the router; and one more message if a minimum is asked for. -/
theorem C35_messages {api : Api} {q : Querier} {me caller S : Addr} {s s' : Router.State} {m : ExecMsg} {r : Response}
    {ops : List SwapOp} {mn : Option Nat} {dst : Option Str} (hm : Router.Request S ops mn dst caller m)
    (h : Router.execute api q me s caller m = .ok (s', r)) :
    r.messages.length = ops.length + (if mn = none then 0 else 1) ∧
    ∀ i (hi : i < ops.length), r.messages[i]? =
      some (plain (.exec me (.executeSwapOperation ops[i] (if i + 1 = ops.length then some (dst.getD S) else none)) [])) := by
  have len : ∀ rcv ops, (Router.hopMsgs me rcv ops).length = ops.length := by
    intro rcv ops
    induction ops with
    | nil => rfl
    | cons o ops ih =>
      cases ops with
      | nil => rfl
      | cons o2 ops => simp only [Router.hopMsgs, List.length_cons, ih]
  have get : ∀ rcv ops i (hi : i < ops.length), (Router.hopMsgs me rcv ops)[i]? =
      some (.exec me (.executeSwapOperation ops[i] (if i + 1 = ops.length then some rcv else none)) []) := by
    intro rcv ops
    induction ops with
    | nil => intro i hi; cases hi
    | cons o ops ih =>
      intro i hi
      cases ops with
      | nil =>
        have : i = 0 := by simpa using hi
        subst this
        rfl
      | cons o2 ops =>
        cases i with
        | zero => simp [Router.hopMsgs]
        | succ i =>
          simp only [Router.hopMsgs, List.getElem?_cons_succ, List.getElem_cons_succ]
          rw [ih i (by simpa using hi)]
          simp
  obtain ⟨_, last, _, _, ⟨rfl, rfl⟩ | ⟨x, prev, rfl, _, rfl⟩⟩ := Router.request_inv hm h
  · refine ⟨by simp [len], fun i hi => ?_⟩
    rw [List.getElem?_map, get _ _ i hi]
    rfl
  · refine ⟨by simp [len], fun i hi => ?_⟩
    rw [List.getElem?_map, List.getElem?_append_left (by rw [len]; exact hi), get _ _ i hi]
    rfl

/-- Contract addresses are in normal form. -/
private theorem resolve_addr {c : Chain} (hc : c.Lawful) {a : Addr} (h : ∃ i, a = c.addrOf i) : c.api.resolve a = .ok a := by
  obtain ⟨i, rfl⟩ := h
  obtain ⟨b, h1, h2⟩ := hc.addr_valid i
  exact resolve_eq_ok.mpr ⟨b, h1, h2⟩

/-- C35: a hop, over whatever pair the factory names — hostile or not — amounts to one message offering the router's
whole balance of the asset, with the given recipient. -/
theorem C35_hop_offers_all {c : Chain} (hc : c.Lawful) {adv : Adv} {n n' : Nat} {v v' : World} {rou S : Addr}
    {adm : Option Addr} {s : Router.State} {op : SwapOp} {dst : Option Str} (hrou : ∃ i, rou = c.addrOf i)
    (ha : v.contracts rou = some ⟨adm, .router s⟩) (ho : Honest v op.offer)
    (h : run c adv n v [.msg S (plain (.exec rou (.executeSwapOperation op dst) []))] = .ok (n', v')) :
    S = rou ∧ ∃ m pair, n = m + 1 ∧ run c adv m v [.msg rou (plain (match op.offer with
      | .native d => .exec pair (.swapDirect none none dst) [⟨d, held v op.offer rou⟩]
      | .token t => .exec t (.send pair (held v op.offer rou) (.swap none none dst)) []))] = .ok (n', v') := by
  obtain ⟨hS, _, m, q, f, info, x, rfl, _, _, h3, hr⟩ := hop_inv (resolve_addr hc hrou) ha h
  rw [(queryPool_held ho h3).1] at hr
  refine ⟨hS, m, info.contractAddr, rfl, ?_⟩
  cases he : op.offer <;> rw [he] at hr <;> exact hr

/-- C35: a hop over a deployed pair with well-behaved assets. The router's whole balance of the offered asset, however it
came there, moves to the pair — the router is left with nothing of it — and the payout for it, at the price of the pair's
reserves, moves to the recipient: the router itself for all hops but the last (`C35_messages`). -/
theorem C35_hop_spends_all {c : Chain} (hc : c.Lawful) {adv : Adv} {n n' : Nat} {v v' : World} {rou S f : Addr}
    {adm fadm : Option Addr} {s : Router.State} {fs : Factory.State} {op : SwapOp} {dst : Option Str} {k : PairSite}
    (hrou : ∃ i, rou = c.addrOf i) (ha : v.contracts rou = some ⟨adm, .router s⟩)
    (hfa : c.api.human s.haloFactory = some f) (hf : v.contracts f = some ⟨fadm, .factory fs⟩)
    (hk : ∀ info, Factory.queryPair c.api fs (op.offer, op.ask) = .ok info → info.contractAddr = k.a)
    (hka : ∃ i, k.a = c.addrOf i) (hg : k.Good v) (hx : k.Ctx c) (hd : k.Dir op.offer op.ask)
    (hdst : dst ≠ some k.a)
    (h : run c adv n v [.msg S (plain (.exec rou (.executeSwapOperation op dst) []))] = .ok (n', v')) :
    held v op.offer rou ≠ 0 ∧ held v' op.offer rou = 0 ∧
    held v' op.offer k.a = held v op.offer k.a + held v op.offer rou ∧
    ∃ ret sp cm, Pair.computeSwap (held v op.offer k.a) (held v op.ask k.a) (held v op.offer rou) = .ok (ret, sp, cm) ∧
      ret ≤ held v op.ask k.a ∧ held v' op.ask k.a = held v op.ask k.a - ret ∧
      held v' op.ask (dst.getD rou) = held v op.ask (dst.getD rou) + ret := by
  have hne := hd.ne hx
  have hak : rou ≠ k.a := by rintro e; rw [e, hg.pair] at ha; cases ha
  obtain ⟨_, _, ret, sp, cm, v1, hp, hx1, hx2⟩ :=
    hop_exact (resolve_addr hc hrou) ha hfa hf hk hg hx (resolve_addr hc hka) hd h
  obtain ⟨b1, b2⟩ := hx1.bal hak
  have o1 : ∀ b, held v1 op.ask b = held v op.ask b := hx1.other _ (Ne.symm hne)
  have hne2 : k.a ≠ dst.getD rou := by
    cases dst with
    | none => exact Ne.symm hak
    | some d => intro e; exact hdst (congrArg some (e.symm : d = k.a))
  rcases hx2 with ⟨rfl, rfl⟩ | ⟨_, hx2⟩
  · exact ⟨hx1.pos, by omega, b2, 0, sp, cm, hp, Nat.zero_le _, o1 _, o1 _⟩
  · obtain ⟨c1, c2⟩ := hx2.bal hne2
    have hle := hx2.le
    rw [o1] at c1 c2 hle
    have o2 : ∀ b, held v' op.offer b = held v1 op.offer b := hx2.other _ hne
    exact ⟨hx1.pos, by rw [o2]; omega, by rw [o2]; exact b2, ret, sp, cm, hp, hle, c1, c2⟩

/-! ## C32 -/

/-- C32: if a route request with minimum `m` — sent directly or along with tokens, by anyone, over any contracts —
succeeds, the receiver ends up with at least `m` more of the target than when the router was called (`w1`: after the
attached coins arrived). Third-party contracts may do anything in between; excluded are only a migration of the router
itself or of the target token to foreign code meanwhile. -/
theorem C32_minimum_receive {c : Chain} (hc : c.Lawful) {adv : Adv} {n n' : Nat} {w w1 w' : World} {rou caller S : Addr}
    {target : Str} {adm adm' : Option Addr} {s s' : Router.State} {msg : ExecMsg} {funds : List Coin} {ops : List SwapOp}
    {m : Nat} {dst : Option Str} {last : SwapOp} (hres : c.api.resolve target = .ok rou)
    (ha : w.contracts rou = some ⟨adm, .router s⟩) (hreq : Router.Request S ops (some m) dst caller msg)
    (hw1 : moveCoins w caller rou funds = .ok w1)
    (h : run c adv n w [.msg caller (plain (.exec target msg funds))] = .ok (n', w'))
    (hl : ops.getLast? = some last) (h0 : Honest w last.ask) (h1 : Honest w' last.ask)
    (ha' : w'.contracts rou = some ⟨adm', .router s'⟩) :
    held w1 last.ask (dst.getD S) + m ≤ held w' last.ask (dst.getD S) := by
  have hrr : c.api.resolve rou = .ok rou := by
    obtain ⟨b, _, hb⟩ := resolve_eq_ok.mp hres
    exact hc.resolve_human hb
  obtain ⟨n1, v, fs1, rfl, hs, hrun⟩ := run_cons_inv h
  obtain ⟨r, hmv, hx, rfl⟩ := rou_exec hres ha (step_inv hs)
  rw [hw1] at hmv
  cases hmv
  obtain ⟨_, last', hl', _, ⟨h2, _⟩ | ⟨x, prev, h2, hprev, rfl⟩⟩ := Router.request_inv hreq hx
  · cases h2
  cases h2
  rw [hl] at hl'
  cases hl'
  have hc1 : w1.contracts = w.contracts := (moveCoins_inv hw1).contracts
  have hprev := (queryPool_held (i := last.ask) (fun t ht => by rw [hc1]; exact h0 t ht) hprev).1
  simp only [frames, replyFrame, List.append_nil, List.map_append, List.map_cons, List.map_nil] at hrun
  obtain ⟨n2, u, hr1, hr2⟩ := run_append.mp hrun
  obtain ⟨adm2, hu⟩ : ∃ adm2, u.contracts rou = some ⟨adm2, .router s⟩ := by
    obtain ⟨_, h3 | h3⟩ := rou_run ((congrFun hc1 rou).trans ha) hr1
    · exact ⟨_, h3⟩
    · obtain ⟨_, this⟩ := other_run h3 hr2
      rw [ha'] at this
      cases this
  obtain ⟨n3, u', fs2, rfl, hs2, hr3⟩ := run_cons_inv hr2
  obtain ⟨r2, hmv2, hx2, rfl⟩ := rou_exec hrr hu (step_inv hs2)
  rw [moveCoins_nil] at hmv2
  subst hmv2
  simp only [Router.execute, Router.assertMinimumReceive, bind_eq_ok, pure_eq_ok, require_eq_ok, Prod.mk.injEq] at hx2
  obtain ⟨rcv, hrcv, bal, hbal, d, hd, _, hge, _, rfl⟩ := hx2
  obtain ⟨rfl, _⟩ := validate_eq_ok.mp hrcv
  simp only [frames, replyFrame, List.map_nil, List.append_nil, run_nil, Except.ok.injEq, Prod.mk.injEq] at hr3
  obtain ⟨-, rfl⟩ := hr3
  have hbal := (queryPool_held (i := last.ask) h1 hbal).1
  obtain ⟨hle, rfl⟩ := Uint128.checkedSub_eq_ok.mp hd
  simp only [SwapOp.target] at *
  omega

/-- C32 for a whole transaction that sends `x` of a token to the router together with the request: the receiver ends up
with at least `m` more of the target than before — not counting, if they are the sender and the target is the very token
they sent, the `x` that were sent away. -/
theorem C32_minimum_receive_tx {c : Chain} (hc : c.Lawful) {adv : Adv} {gas : Nat} {w w' : World} (hw : Reachable c w)
    {rou t S : Addr} {adm adm' : Option Addr} {s s' : Router.State} {ops : List SwapOp} {x m : Nat} {dst : Option Str}
    {last : SwapOp} (hS : c.IsUser S) (ha : w.contracts rou = some ⟨adm, .router s⟩) (ht : Honest w (.token t))
    (h : runTx c adv gas w S (.exec t (.send rou x (.executeSwapOperations ops (some m) dst)) []) = .ok w')
    (hl : ops.getLast? = some last) (h0 : Honest w last.ask) (h1 : Honest w' last.ask)
    (ha' : w'.contracts rou = some ⟨adm', .router s'⟩) (hrcv : dst.getD S ≠ rou) :
    held w last.ask (dst.getD S) + m ≤
      held w' last.ask (dst.getD S) + (if dst.getD S = S ∧ last.ask = .token t then x else 0) := by
  obtain ⟨n, hr⟩ := runTx_inv h
  have hrr := (addr_facts hc hw ha).1
  have hSr : S ≠ rou := (addr_facts hc hw ha).2 S hS
  have htr : c.api.resolve t = .ok t := by
    obtain ⟨_, _, h2⟩ := ht t rfl
    exact (addr_facts hc hw h2).1
  obtain ⟨k, v1, rfl, hx, hr⟩ := send_inv ht htr hr
  have key := C32_minimum_receive hc hrr (hx.keep.contracts ha (by intro _ h; cases h)) (.hook t x) (moveCoins_nil.mpr rfl) hr hl
    (hx.keep.honest h0) h1 ha'
  split
  · rename_i hh
    have h2 := (hx.bal hSr).1
    have h3 := hx.le
    rw [hh.1, hh.2] at key ⊢
    omega
  · rename_i hh
    have e : held v1 last.ask (dst.getD S) = held w last.ask (dst.getD S) := by
      by_cases h2 : last.ask = .token t
      · rw [h2]
        exact hx.rest _ (fun e => hh ⟨e, h2⟩) hrcv
      · exact hx.other _ h2 _
    omega

/-! ## C36 -/

/-- C36: the amount quoted for a route is the amount the route pays. The route leads over different pairs with
well-behaved assets, each hop offering what the previous one bought; the pairs are those the factory names; the router
holds nothing of the assets on the route, and the receiver is neither the router nor one of the pairs. Then a transaction
that sends `x` of the first asset to the router, starting in the state `w` of the quote `y`, gives the receiver exactly `y`
of the target, and of no other asset anything; only what the sender pays is deducted from the sender (the receiver by
default). -/
theorem C36_route_pays_quote {c : Chain} (hc : c.Lawful) {adv : Adv} {gas : Nat} {w w' : World} (hw : Reachable c w)
    {rou t S f : Addr} {adm fadm : Option Addr} {s : Router.State} {fs : Factory.State} {ops : List SwapOp}
    {ks : List PairSite} {x y : Nat} {mn : Option Nat} {dst : Option Str} {first last : SwapOp} (hS : c.IsUser S)
    (ha : w.contracts rou = some ⟨adm, .router s⟩) (hfa : c.api.human s.haloFactory = some f)
    (hf : w.contracts f = some ⟨fadm, .factory fs⟩)
    (hks : List.Forall₂ (fun op k => k.Sound c w ∧ k.Dir op.offer op.ask ∧
      ∀ info, Factory.queryPair c.api fs (op.offer, op.ask) = .ok info → info.contractAddr = k.a) ops ks)
    (hnd : (ks.map PairSite.a).Nodup) (hcon : ops.IsChain fun a b => a.ask = b.offer)
    (hfirst : ops.head? = some first) (hlast : ops.getLast? = some last) (ht : first.offer = .token t)
    (hleft : ∀ op ∈ ops, held w op.offer rou = 0) (hrr : dst.getD S ≠ rou) (hrk : ∀ k ∈ ks, dst.getD S ≠ k.a)
    {q : Querier} (hq : Router.simulateSwapOperations c.api (querier c q w) s x ops = .ok y)
    (h : runTx c adv gas w S (.exec t (.send rou x (.executeSwapOperations ops mn dst)) []) = .ok w') :
    x ≤ held w (.token t) S ∧ ∀ i, held w' i (dst.getD S) =
      held w i (dst.getD S) - (if dst.getD S = S ∧ i = .token t then x else 0) + (if i = last.ask then y else 0) := by
  obtain ⟨n, hr⟩ := runTx_inv h
  have hres := (addr_facts hc hw ha).1
  have hSr : S ≠ rou := (addr_facts hc hw ha).2 S hS
  have hsite : List.Forall₂ (HopSite c w fs) ops ks := hks.imp fun op k hh =>
    ⟨hh.1.ctx hc, hh.1.good hc hw, (addr_facts hc hw hh.1.pair).1, human_self hc hw hh.1.pair, hh.2.1, hh.2.2⟩
  have hto : Honest w (.token t) := by
    cases hks with
    | nil => cases hfirst
    | cons h1 _ =>
      simp only [List.head?_cons, Option.some.injEq] at hfirst
      subst hfirst
      rw [← ht]
      exact (h1.1.good hc hw).honest h1.2.1.fst
  have htr : c.api.resolve t = .ok t := by
    obtain ⟨_, _, h2⟩ := hto t rfl
    exact (addr_facts hc hw h2).1
  have hfr := hc.resolve_human hfa
  -- the quote
  simp only [Router.simulateSwapOperations, bind_eq_ok, humanize_eq_ok, require_eq_ok] at hq
  obtain ⟨f', hf', _, _, hq⟩ := hq
  rw [hfa] at hf'
  cases hf'
  have hquote := Quote.of_sim hf hfr hsite hq
  -- the tokens arrive
  obtain ⟨k, v1, rfl, hx, hr⟩ := send_inv hto htr hr
  have ha1 := hx.keep.contracts ha (by intro _ h; cases h)
  have hf1 := hx.keep.contracts hf (by intro _ h; cases h)
  obtain ⟨n1, v, fs1, rfl, hs, hrun⟩ := run_cons_inv hr
  obtain ⟨r, hmv, hex, rfl⟩ := rou_exec hres ha1 (step_inv hs)
  rw [moveCoins_nil, eq_comm] at hmv
  subst hmv
  have hks1 : ∀ k ∈ ks, ∀ i, held v1 i k.a = held w i k.a := by
    intro k hk i
    obtain ⟨op, _, hsk⟩ := forall₂_mem_right hks hk
    refine hx.outside ?_ ?_ i
    · exact Ne.symm ((addr_facts hc hw hsk.1.pair).2 S hS)
    · intro e
      obtain ⟨_, this⟩ := hsk.1.live
      rw [e, ha] at this
      cases this
  have hb0 : held v1 first.offer rou = x := by
    have := (hx.bal hSr).2
    rw [← ht, hleft first (List.mem_of_head? hfirst)] at this
    omega
  have hz : ∀ op ∈ ops, op.offer ≠ first.offer → held v1 op.offer rou = 0 := by
    intro op ho hne
    rw [hx.other _ (ht ▸ hne)]
    exact hleft op ho
  -- the route, and the check of the minimum, if any
  have hroute : ∃ m u, run c adv n1 v1 ((Router.hopMsgs rou (dst.getD S) ops).map fun m => .msg rou (plain m)) = .ok (m, u) ∧
      w' = u := by
    obtain ⟨_, last', hl', _, ⟨rfl, rfl⟩ | ⟨mm, prev, rfl, _, rfl⟩⟩ := Router.request_inv (.hook t x) hex
    · refine ⟨n, w', ?_, rfl⟩
      simpa [frames, replyFrame, Function.comp_def] using hrun
    · simp only [frames, replyFrame, List.append_nil, List.map_append, List.map_cons, List.map_nil, List.map_map] at hrun
      obtain ⟨n2, u, hr1, hr2⟩ := run_append.mp hrun
      refine ⟨n2, u, hr1, ?_⟩
      have hu : u.contracts rou = some ⟨adm, .router s⟩ :=
        (route_run hres hfa hrr ha1 hf1 (hsite.imp fun _ _ hh => hh.keep hx.keep) hnd hcon
          (fun hm => by obtain ⟨k, hk, e⟩ := List.mem_map.mp hm; exact hrk k hk e.symm) hfirst hlast hb0 hz
          (hquote.congr hks1) hr1).1.contracts ha1 (by intro _ h; cases h)
      obtain ⟨n3, u', fs2, rfl, hs2, hr3⟩ := run_cons_inv hr2
      obtain ⟨r2, hmv2, hx2, rfl⟩ := rou_exec hres hu (step_inv hs2)
      rw [moveCoins_nil] at hmv2
      subst hmv2
      simp only [Router.execute, Router.assertMinimumReceive, bind_eq_ok, pure_eq_ok, require_eq_ok, Prod.mk.injEq] at hx2
      obtain ⟨rcv, hrcv, bal, hbal, d, hd, _, hge, _, rfl⟩ := hx2
      simp only [frames, replyFrame, List.map_nil, List.append_nil, run_nil, Except.ok.injEq, Prod.mk.injEq] at hr3
      exact hr3.2.symm
  obtain ⟨m, u, hr1, rfl⟩ := hroute
  obtain ⟨_, e1, e2⟩ := route_run hres hfa hrr ha1 hf1 (hsite.imp fun _ _ hh => hh.keep hx.keep) hnd hcon
    (fun hm => by obtain ⟨k, hk, e⟩ := List.mem_map.mp hm; exact hrk k hk e.symm) hfirst hlast hb0 hz
    (hquote.congr hks1) hr1
  refine ⟨hx.le, fun i => ?_⟩
  have e3 : held v1 i (dst.getD S) = held w i (dst.getD S) - (if dst.getD S = S ∧ i = .token t then x else 0) := by
    split
    · rename_i hh
      rw [hh.1, hh.2]
      exact (hx.bal hSr).1
    · rename_i hh
      by_cases h2 : i = .token t
      · rw [h2]
        exact hx.rest _ (fun e => hh ⟨e, h2⟩) hrr
      · exact hx.other _ h2 _
  by_cases hi : i = last.ask
  · subst hi
    rw [e1, e3]
    simp
  · rw [e2 i hi, e3]
    simp [hi]

/-! ## The hypotheses can be met -/

namespace Demo

/-- The pair BC of the demo. -/
def siteBC : PairSite where
  a := pBC
  lt := lpBC
  s := { assetInfos := (.token tB, .token tC), contractAddr := pBC, liquidityToken := lpBC, assetDecimals := (6, 6),
         requirements := ⟨[user], 10, 10⟩ }
  i0 := .token tB
  i1 := .token tC

theorem sound_BC : siteBC.Sound chain deployed :=
  sound_of (k := siteBC) (x := tB) (y := tC) (by decide +kernel) ⟨rfl, rfl, rfl⟩ rfl rfl (by decide +kernel)
    (by decide +kernel)

/-- The router stored at an address. -/
def rouAt (w : World) (a : Addr) : Option (Option Addr × Router.State) :=
  match w.contracts a with
  | some ⟨adm, .router s⟩ => some (adm, s)
  | _ => none

theorem rouAt_eq {w : World} {a : Addr} {p : Option Addr × Router.State} (h : rouAt w a = some p) :
    w.contracts a = some ⟨p.1, .router p.2⟩ := by
  unfold rouAt at h
  split at h
  · rename_i h2
    cases h
    exact h2
  · cases h

/-- From A over B to C. -/
def route : List SwapOp := [⟨.token tA, .token tB⟩, ⟨.token tB, .token tC⟩]

/-- The simulation of a swap of 1000 A, and the swap. -/
def swapA : List CosmosMsg := [.exec tA (.send pAB 1000 (.swap none none (some user2))) []]
def swappedA : World := worldOf (runs swapA deployed)
theorem swapA_run : runs swapA deployed = .ok swappedA := worldOf_eq (by decide +kernel)

theorem runs_one {m : CosmosMsg} {w w' : World} (h : runs [m] w = .ok w') : runTx chain idle 20 w user m = .ok w' := by
  simp only [runs, bind_eq_ok, Except.ok.injEq] at h
  obtain ⟨v, h1, rfl⟩ := h
  exact h1

example := C07_quote_is_paid lawful deployed_reachable sound_AB (t := tA) (j := .token tB) (.inl ⟨rfl, rfl⟩)
  (q := q 0 0 0) (x := 1000) (quote := ⟨1813, 182, 5⟩) (val_eq (by decide +kernel)) isUser_user (runs_one swapA_run)

example : held deployed (.token tB) user2 = 0 ∧ held swappedA (.token tB) user2 = 1813 := by decide +kernel

/-- The route, sent along with 1000 A. -/
def routeMsg : List CosmosMsg := [.exec tA (.send rou 1000 (.executeSwapOperations route (some 3000) (some user2))) []]
def routed : World := worldOf (runs routeMsg deployed)
theorem routed_run : runs routeMsg deployed = .ok routed := worldOf_eq (by decide +kernel)

theorem honest_token {w : World} {t : Addr} (h : (tokenAt w t).isSome = true) : Honest w (.token t) := by
  intro t' ht
  cases ht
  obtain ⟨p, hp⟩ := Option.isSome_iff_exists.mp h
  exact ⟨_, _, tokenAt_eq hp⟩

example := C32_minimum_receive_tx lawful deployed_reachable (rou := rou) (t := tA) (S := user) isUser_user
  (rouAt_eq (p := (none, ⟨fac⟩)) (by decide +kernel)) (honest_token (by decide +kernel)) (runs_one routed_run) rfl
  (honest_token (by decide +kernel)) (honest_token (by decide +kernel)) (rouAt_eq (p := (none, ⟨fac⟩)) (by decide +kernel))
  (by decide +kernel)

example := C36_route_pays_quote lawful deployed_reachable (rou := rou) (t := tA) (S := user) (ks := [siteAB, siteBC])
  (y := 3060) isUser_user (rouAt_eq (p := (none, ⟨fac⟩)) (by decide +kernel)) rfl (facState_eq (a := fac) (by decide +kernel))
  (.cons ⟨sound_AB, .inl ⟨rfl, rfl⟩, fun info h => by
      have e : val (Factory.queryPair chain.api (facState deployed fac) (.token tA, .token tB)) = some info := by rw [h]; rfl
      have e2 : (val (Factory.queryPair chain.api (facState deployed fac) (.token tA, .token tB))).map
        PairInfo.contractAddr = some pAB := by decide +kernel
      rw [e] at e2; exact Option.some.inj e2⟩
    (.cons ⟨sound_BC, .inl ⟨rfl, rfl⟩, fun info h => by
      have e : val (Factory.queryPair chain.api (facState deployed fac) (.token tB, .token tC)) = some info := by rw [h]; rfl
      have e2 : (val (Factory.queryPair chain.api (facState deployed fac) (.token tB, .token tC))).map
        PairInfo.contractAddr = some pBC := by decide +kernel
      rw [e] at e2; exact Option.some.inj e2⟩ .nil))
  (by decide +kernel) (by decide +kernel) rfl rfl rfl (by decide +kernel) (by decide +kernel) (by decide +kernel)
  (q := q 0 0 0) (val_eq (by decide +kernel)) (runs_one routed_run)

example : held deployed (.token tC) user2 = 0 ∧ held routed (.token tC) user2 = 3060 := by decide +kernel

/-- The router was given 500 A. -/
def fed : World := worldOf (runs [.exec tA (.transfer rou 500) []] deployed)

/-- The router then runs a hop. -/
def hopRun : R (Nat × World) :=
  run chain idle 9 fed [.msg rou (plain (.exec rou (.executeSwapOperation ⟨.token tA, .token tB⟩ none) []))]
def hopEnd : Nat × World := (val hopRun).getD (0, fed)

theorem sound_fed : siteAB.Sound chain fed :=
  sound_of (k := siteAB) (x := tA) (y := tB) (by decide +kernel) ⟨rfl, rfl, rfl⟩ rfl rfl (by decide +kernel)
    (by decide +kernel)

theorem fed_reachable : Reachable chain fed :=
  deployed_reachable.later (later_runs (worldOf_eq (r := runs [.exec tA (.transfer rou 500) []] deployed) (by decide +kernel)))

theorem hop_runs : run chain idle 9 fed
    [.msg rou (plain (.exec rou (.executeSwapOperation ⟨.token tA, .token tB⟩ none) []))] = .ok (hopEnd.1, hopEnd.2) := by
  have h : (val hopRun).isSome = true := by decide +kernel
  obtain ⟨p, hp⟩ := Option.isSome_iff_exists.mp h
  have e : hopEnd = p := by rw [hopEnd, hp]; rfl
  rw [e]
  exact val_eq hp

example := C35_hop_spends_all lawful (rou := rou) (f := fac) (k := siteAB) ⟨8, rfl⟩
  (rouAt_eq (p := (none, ⟨fac⟩)) (by decide +kernel)) rfl (facState_eq (a := fac) (by decide +kernel))
  (fun info h => by
      have e : val (Factory.queryPair chain.api (facState fed fac) (.token tA, .token tB)) = some info := by rw [h]; rfl
      have e2 : (val (Factory.queryPair chain.api (facState fed fac) (.token tA, .token tB))).map
        PairInfo.contractAddr = some pAB := by decide +kernel
      rw [e] at e2; exact Option.some.inj e2)
  ⟨4, rfl⟩ (sound_fed.good lawful fed_reachable) (sound_fed.ctx lawful) (.inl ⟨rfl, rfl⟩) (by decide) hop_runs

end Demo

end Halo
