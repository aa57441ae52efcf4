import Verif.Props.Replay
import Verif.Props.Steps
/-! # Only allowances know the time (C107)

No contract of the project reads the height or the time of the block; there is no deadline in any message. `cw20-base` compares
them with the expiration of allowances, and nothing else. -/

namespace Halo
open _root_.Halo.Spec

/-- The same world at another height and time. -/
def World.at_ (w : World) (b : Block) : World := { w with block := b }

/-- The expirations a token compares with the clock when `u` sends it a message: that of the allowance to be used, or the one to be granted. -/
def expirationsOf (s : TokenState) (u : Addr) : ExecMsg → List Expiration
  | .transferFrom o _ _ | .burnFrom o _ | .sendFrom o _ _ _ => ((s.allowances.get (o, u)).map Allowance.expires).toList
  | .increaseAllowance _ _ e | .decreaseAllowance _ _ e => e.toList
  | _ => []

/-- The expirations that matter when a frame is executed: none, unless it is a message to a token. -/
def expirationsAt (c : Chain) : World × Frame → List Expiration
  | (w, .msg u ⟨.exec a m _, _⟩) =>
    match c.api.resolve a with
    | .ok self =>
      match w.contracts self with
      | some ⟨_, .token s⟩ => expirationsOf s u m
      | _ => []
    | .error _ => []
  | _ => []

namespace ClockL

/-- Results at another time. -/
def later (b : Block) (r : World × List Frame) : World × List Frame := (r.1.at_ b, r.2)

theorem expired_iff {x y : Block} {e : Expiration} (h : Past x e ↔ Past y e) : e.isExpired x = e.isExpired y := by
  cases e <;> simp_all [Past, Expiration.isExpired]

theorem bind_map {α β γ δ : Type} (f : α → β) (g : γ → δ) {x : R α} {k : α → R γ} {k' : β → R δ}
    (h : ∀ a, x = .ok a → k' (f a) = (k a).map g) : (x.map f >>= k') = (x >>= k).map g := by
  cases x with
  | error e => rfl
  | ok a => exact h a rfl

theorem bind_same {α γ δ : Type} (g : γ → δ) {x : R α} {k : α → R γ} {k' : α → R δ}
    (h : ∀ a, x = .ok a → k' a = (k a).map g) : (x >>= k') = (x >>= k).map g := by
  cases x with
  | error e => rfl
  | ok a => exact h a rfl

theorem moveCoin_at (w : World) (b : Block) (s d : Addr) (k : Coin) :
    moveCoin (w.at_ b) s d k = (moveCoin w s d k).map (World.at_ · b) := by
  unfold moveCoin
  refine bind_same _ fun _ _ => ?_
  exact bind_same _ fun _ _ => rfl

theorem moveCoinsLoop_at (b : Block) (s d : Addr) : ∀ (l : List Coin) (w : World),
    moveCoinsLoop s d l (w.at_ b) = (moveCoinsLoop s d l w).map (World.at_ · b)
  | [], _ => rfl
  | k :: l, w => by
    simp only [moveCoinsLoop]
    rw [moveCoin_at]
    exact bind_map _ _ fun v _ => moveCoinsLoop_at b s d l v

theorem moveCoins_at (w : World) (b : Block) (s d : Addr) (l : List Coin) :
    moveCoins (w.at_ b) s d l = (moveCoins w s d l).map (World.at_ · b) := by
  unfold moveCoins
  exact bind_same _ fun _ _ => moveCoinsLoop_at b s d l w

theorem querier_at (c : Chain) (q : Querier) (w : World) (b : Block) : querier c q (w.at_ b) = querier c q w := rfl

theorem deduct_at {x y : Block} {s : TokenState} {o u : Addr} {n : Nat}
    (h : ∀ e ∈ ((s.allowances.get (o, u)).map Allowance.expires).toList, Past x e ↔ Past y e) :
    Token.deductAllowance x s o u n = Token.deductAllowance y s o u n := by
  unfold Token.deductAllowance
  cases hg : s.allowances.get (o, u) with
  | none => rfl
  | some a =>
    rw [hg] at h
    simp only [expired_iff (h a.expires (by simp))]

theorem grant_at {api : Api} {x y : Block} {e : Option Expiration} (h : ∀ d ∈ e.toList, Past x d ↔ Past y d) :
    Token.checkGrant api x e = Token.checkGrant api y e := by
  cases e with
  | none => rfl
  | some e => simp only [Token.checkGrant, Option.all_some, expired_iff (h e (by simp))]

/-- A token does the same with a message at two times between which none of the expirations in question lies. -/
theorem token_at {api : Api} {x y : Block} {s : TokenState} {u : Addr} {m : ExecMsg}
    (h : ∀ e ∈ expirationsOf s u m, Past x e ↔ Past y e) : Token.execute api x s u m = Token.execute api y s u m := by
  cases m <;> try rfl
  case increaseAllowance sp n e =>
    simp only [Token.execute, Token.increaseAllowance, grant_at h]
  case decreaseAllowance sp n e =>
    simp only [Token.execute, Token.decreaseAllowance, grant_at h]
  case transferFrom o r n =>
    simp only [Token.execute, Token.transferFrom]
    congr 1; funext rc
    cases ho : api.validate o with
    | error => rfl
    | ok o' =>
      cases (Token.validate_self ho).1
      show Token.deductAllowance x s _ u n >>= _ = Token.deductAllowance y s _ u n >>= _
      rw [deduct_at h]
  case burnFrom o n =>
    simp only [Token.execute, Token.burnFrom]
    cases ho : api.validate o with
    | error => rfl
    | ok o' =>
      cases (Token.validate_self ho).1
      show Token.deductAllowance x s _ u n >>= _ = Token.deductAllowance y s _ u n >>= _
      rw [deduct_at h]
  case sendFrom o r n k =>
    simp only [Token.execute, Token.sendFrom]
    congr 1; funext rc
    cases ho : api.validate o with
    | error => rfl
    | ok o' =>
      cases (Token.validate_self ho).1
      show Token.deductAllowance x s _ u n >>= _ = Token.deductAllowance y s _ u n >>= _
      rw [deduct_at h]

theorem callExecute_at {c : Chain} {adv : Adv} {n : Nat} {w : World} {self u : Addr} {fu : List Coin} {m : ExecMsg} {b : Block}
    (h : ∀ adm s, w.contracts self = some ⟨adm, .token s⟩ → ∀ e ∈ expirationsOf s u m, Past w.block e ↔ Past b e) :
    callExecute c adv n (w.at_ b) self u fu m = (callExecute c adv n w self u fu m).map (later b) := by
  unfold callExecute
  refine bind_same _ fun _ _ => ?_
  have e : (w.at_ b).contracts self = w.contracts self := rfl
  rw [querier_at, e]
  rcases hs : w.contracts self with _ | ⟨adm, s | s | s | s | _⟩
  · rfl
  · show (Token.execute c.api b s u m >>= _) = _
    rw [← token_at (h adm s hs)]
    exact bind_same _ fun _ _ => rfl
  all_goals exact bind_same _ fun _ _ => rfl

theorem step_at {c : Chain} {adv : Adv} {n : Nat} {w : World} {f : Frame} {b : Block}
    (h : ∀ e ∈ expirationsAt c (w, f), Past w.block e ↔ Past b e) :
    step c adv n (w.at_ b) f = (step c adv n w f).map (later b) := by
  match f with
  | .msg sender ⟨.bankSend dst coins, id⟩ =>
    simp only [step]
    refine bind_same _ fun _ _ => bind_same _ fun d _ => ?_
    rw [moveCoins_at]
    exact bind_map _ _ fun _ _ => rfl
  | .msg sender ⟨.exec contract m funds, id⟩ =>
    simp only [step]
    refine bind_same _ fun self hself => ?_
    refine bind_same _ fun _ _ => ?_
    rw [moveCoins_at]
    refine bind_map _ _ fun v hv => ?_
    have hb : v.contracts = w.contracts ∧ v.block = w.block := by
      have := moveCoins_inv hv
      exact ⟨this.contracts, this.block⟩
    rw [callExecute_at (b := b) (by
      intro adm s hs
      rw [hb.1] at hs
      rw [hb.2]
      simp only [expirationsAt, hself, hs] at h
      exact h)]
    exact bind_map _ _ fun _ _ => rfl
  | .msg sender ⟨.inst admin codeId m funds, id⟩ =>
    simp only [step]
    refine bind_same _ fun k _ => bind_same _ fun adm _ => bind_same _ fun _ _ => ?_
    rw [show ({ w.at_ b with next := (w.at_ b).next + 1 } : World) = ({ w with next := w.next + 1 } : World).at_ b from rfl, moveCoins_at]
    refine bind_map _ _ fun v _ => ?_
    exact bind_same _ fun _ _ => rfl
  | .msg sender ⟨.migrate contract codeId, id⟩ =>
    simp only [step]
    exact bind_same _ fun _ _ => bind_same _ fun _ _ => bind_same _ fun _ _ => bind_same _ fun _ _ => rfl
  | .msg sender ⟨.updateAdmin contract new, id⟩ =>
    simp only [step]
    exact bind_same _ fun _ _ => bind_same _ fun _ _ => bind_same _ fun _ _ => bind_same _ fun _ _ => rfl
  | .reply self i created =>
    simp only [step, querier_at]
    have e : (w.at_ b).contracts self = w.contracts self := rfl
    rw [e]
    rcases hs : w.contracts self with _ | ⟨adm, s | s | s | s | _⟩ <;> first | rfl | exact bind_same _ fun _ _ => rfl

theorem step_block {c : Chain} {adv : Adv} {n : Nat} {w w' : World} {f : Frame} {fs : List Frame}
    (h : step c adv n w f = .ok (w', fs)) : w'.block = w.block := by
  have h1 := step_at (c := c) (adv := adv) (n := n) (w := w) (f := f) (b := w.block) (fun _ _ => Iff.rfl)
  rw [show w.at_ w.block = w from rfl, h] at h1
  have h2 : w' = w'.at_ w.block := congrArg Prod.fst (Except.ok.inj h1)
  rw [h2]
  rfl

theorem run_at {c : Chain} {adv : Adv} {b b0 : Block} : ∀ {n : Nat} {w : World} {fs : List Frame}, w.block = b0 →
    (∀ x ∈ trace c adv n w fs, ∀ e ∈ expirationsAt c x, Past b0 e ↔ Past b e) →
    run c adv n (w.at_ b) fs = (run c adv n w fs).map fun r => (r.1, r.2.at_ b)
  | _, _, [], _, _ => by simp only [run]; rfl
  | 0, _, _ :: _, _, _ => by simp only [run]; rfl
  | n + 1, w, f :: fs, hb, h => by
    simp only [run]
    rw [step_at (b := b) (hb ▸ h (w, f) (by simp [trace]))]
    refine bind_map _ _ fun r hr => ?_
    exact run_at ((step_block hr).trans hb) fun x hx => h x (by simp only [trace, hr]; exact List.mem_cons_of_mem _ hx)

end ClockL
open ClockL

/-- **C107.** A transaction does the same, and fails with the same error, at any two moments between which no expiration lies that
is looked at while it is executed: that of an allowance that is used, or that is granted. -/
theorem C107_clock {c : Chain} {adv : Adv} {gas : Nat} {w : World} {signer : Addr} {m : CosmosMsg} {b : Block}
    (h : ∀ x ∈ trace c adv gas w [.msg signer (plain m)], ∀ e ∈ expirationsAt c x, Past w.block e ↔ Past b e) :
    runTx c adv gas (w.at_ b) signer m = (runTx c adv gas w signer m).map (World.at_ · b) := by
  unfold runTx
  rw [run_at rfl h]
  exact bind_map _ _ fun _ _ => rfl

/-! ## Messages without a date -/

/-- Messages that spend from an allowance. -/
def Spends : CosmosMsg → Prop
  | .exec _ (.transferFrom ..) _ | .exec _ (.burnFrom ..) _ | .exec _ (.sendFrom ..) _ => True
  | _ => False

/-- Messages that grant an allowance that may expire. -/
def Dates : CosmosMsg → Prop
  | .exec _ (.increaseAllowance _ _ e) _ | .exec _ (.decreaseAllowance _ _ e) _ => e ≠ none ∧ e ≠ some .never
  | _ => False

/-- Deposits: the pair collects its tokens by allowances. -/
def Deposits : CosmosMsg → Prop
  | .exec _ (.provideLiquidity ..) _ => True
  | _ => False

namespace ClockL

/-- Messages that concern no allowance and are not deposits. -/
def Simple (m : CosmosMsg) : Prop := ¬ Spends m ∧ ¬ Dates m ∧ ¬ Deposits m

/-- Where a message comes from: it is simple, or collects a deposit, or is sent by a third-party contract. -/
def From (adv : Adv) (f : Frame) (sm : SubMsg) : Prop :=
  Simple sm.msg ∨ (∃ u d, f = .msg u d ∧ Deposits d.msg) ∧ (¬ Dates sm.msg ∧ ¬ Deposits sm.msg) ∨ ∃ k a ms, adv.act k a = .ok ms ∧ sm ∈ ms

theorem simple_intoMsg (x : Asset) (dst : Str) : Simple (x.intoMsg dst) := by
  obtain ⟨i, n⟩ := x
  cases i <;> exact ⟨id, id, id⟩

theorem simple_hop {me dst : Addr} {ops : List SwapOp} : ∀ m ∈ Router.hopMsgs me dst ops, Simple m := by
  induction ops with
  | nil => simp [Router.hopMsgs]
  | cons o t ih =>
    cases t with
    | nil => intro m hm; simp only [Router.hopMsgs, List.mem_singleton] at hm; subst hm; exact ⟨id, id, id⟩
    | cons o' t =>
      intro m hm
      simp only [Router.hopMsgs, List.mem_cons] at hm
      rcases hm with rfl | hm
      · exact ⟨id, id, id⟩
      · exact ih m hm

theorem pair_from {adv : Adv} {api : Api} {q : Querier} {s s' : Pair.State} {me u : Addr} {t : Str} {id : Option Nat} {funds : List Coin} {m : ExecMsg} {r : Response}
    (h : Pair.execute api q me s u funds m = .ok (s', r)) : ∀ x ∈ r.messages, From adv (.msg u ⟨.exec t m funds, id⟩) x := by
  rcases Pair.execute_inv h with ⟨_, _, _, _, _, rfl, hr⟩ | ⟨_, _, rfl, hr⟩ | ⟨_, _, _, rfl, hr⟩
  · obtain ⟨_, _, _, _, _, _, _, _, _, h⟩ := Pair.receive_swap_inv hr
    rw [h.h_resp]
    intro x hx
    dsimp only at hx
    split at hx
    · simp only [List.mem_singleton] at hx
      subst hx
      exact .inl (simple_intoMsg _ _)
    · cases hx
  · obtain ⟨_, _, _, _, _, _, _, _, _, _, h⟩ := Pair.receive_withdraw_inv hr
    rw [h.h_resp]
    simp only [List.mem_cons, List.not_mem_nil, or_false, plain]
    rintro x (rfl | rfl | rfl)
    · exact .inl (simple_intoMsg _ _)
    · exact .inl (simple_intoMsg _ _)
    · exact .inl ⟨_root_.id, _root_.id, _root_.id⟩
  · intro x hx
    obtain ⟨_, h2⟩ := Pair.execute_out h
    obtain ⟨cm, rfl, hcm⟩ := h2 x hx
    refine .inr (.inl ⟨⟨_, _, rfl, trivial⟩, ?_, ?_⟩)
    · intro hd; exact hcm.noGrant (by
        show Grants cm
        have hd : Dates cm := hd
        unfold Dates at hd
        split at hd <;> first | trivial | exact hd.elim)
    · intro hd
      have hd : Deposits cm := hd
      unfold Deposits at hd
      split at hd
      · exact hcm
      · exact hd

theorem router_from {api : Api} {q : Querier} {s s' : Router.State} {me sender : Addr} {m : ExecMsg} {r : Response}
    (h : Router.execute api q me s sender m = .ok (s', r)) : ∀ x ∈ r.messages, Simple x.msg := by
  have key : ∀ {S ops mn dst}, Router.Request S ops mn dst sender m → ∀ x ∈ r.messages, Simple x.msg := by
    intro S ops mn dst hq
    obtain ⟨_, last, _, _, ⟨rfl, rfl⟩ | ⟨x, prev, rfl, _, rfl⟩⟩ := Router.request_inv hq h
    · simp only [List.mem_map]
      rintro x ⟨y, hy, rfl⟩
      exact simple_hop _ hy
    · simp only [List.mem_map, List.mem_append, List.mem_singleton]
      rintro x ⟨y, hy | rfl, rfl⟩
      · exact simple_hop _ hy
      · exact ⟨id, id, id⟩
  cases m with
  | receive sd x hk =>
    cases hk with
    | executeSwapOperations o mn t => exact key (.hook (by_ := sd) _ x)
    | _ =>
      simp only [Router.execute, Router.receiveCw20, bind_eq_ok] at h
      obtain ⟨_, _, h⟩ := h
      cases h
  | executeSwapOperations o mn t => exact key .direct
  | executeSwapOperation o t =>
    simp only [Router.execute, Router.executeSwapOperation, bind_eq_ok, pure_eq_ok, Prod.mk.injEq] at h
    obtain ⟨_, _, _, _, _, _, info, _, x, _, _, rfl⟩ := h
    intro y hy
    simp only [List.mem_singleton] at hy
    subst hy
    cases o.offer <;> exact ⟨id, id, id⟩
  | assertMinimumReceive _ _ _ _ =>
    simp only [Router.execute, Router.assertMinimumReceive, bind_eq_ok, pure_eq_ok, Prod.mk.injEq] at h
    obtain ⟨_, _, _, _, _, _, _, _, _, rfl⟩ := h
    simp
  | _ => cases h

theorem inst_from {c : Chain} {adv : Adv} {n : Nat} {me sender : Addr} {k : Kind} {m : InstMsg} {s : CState} {f : Frame}
    {fs : List Frame} (h : callInstantiate c adv n me sender k m = .ok (s, fs)) {a : Addr} {x : SubMsg} (hg : .msg a x ∈ fs) : From adv f x := by
  unfold callInstantiate at h
  simp only [bind_eq_ok] at h
  obtain ⟨_, _, h⟩ := h
  split at h <;> try simp only [bind_eq_ok, pure_eq_ok, Prod.mk.injEq, Prod.exists] at h
  · obtain ⟨_, _, rfl, rfl⟩ := h; cases hg
  · obtain ⟨_, _, h, rfl, rfl⟩ := h
    simp only [Pair.instantiate, bind_eq_ok, pure_eq_ok, Prod.mk.injEq] at h
    obtain ⟨_, _, _, _, _, _, _, rfl⟩ := h
    simp only [frames, List.map_cons, List.map_nil, List.mem_singleton, Frame.msg.injEq] at hg
    obtain ⟨_, rfl⟩ := hg
    exact .inl ⟨id, id, id⟩
  · obtain ⟨_, _, h, rfl, rfl⟩ := h
    simp only [Factory.instantiate, bind_eq_ok, pure_eq_ok, Prod.mk.injEq] at h
    obtain ⟨_, _, _, rfl⟩ := h
    cases hg
  · obtain ⟨_, _, h, rfl, rfl⟩ := h
    simp only [Router.instantiate, bind_eq_ok, pure_eq_ok, Prod.mk.injEq] at h
    obtain ⟨_, _, _, rfl⟩ := h
    cases hg
  · obtain ⟨ms, hms, rfl, rfl⟩ := h
    simp only [List.mem_map, Frame.msg.injEq] at hg
    obtain ⟨_, h1, _, rfl⟩ := hg
    exact .inr (.inr ⟨_, _, _, hms, h1⟩)
  · cases h

theorem step_from {c : Chain} {adv : Adv} {n : Nat} {w w' : World} {f : Frame} {fs : List Frame}
    (h : step c adv n w f = .ok (w', fs)) {a : Addr} {x : SubMsg} (hg : .msg a x ∈ fs) : From adv f x := by
  have rep : ∀ {b : Addr} {id : Option Nat} {o : Option Addr}, Frame.msg a x ∉ replyFrame b id o := by
    intro b id o hm
    obtain ⟨i, _, h⟩ := mem_replyFrame hm
    cases h
  have out : ∀ {b : Addr} {r : Response}, Frame.msg a x ∈ frames b r → x ∈ r.messages := by
    intro b r hm
    obtain ⟨m, hm, h⟩ := mem_frames hm
    cases h
    exact hm
  have hs := step_inv h
  cases hs with
  | bank | migrate | admin => exact absurd hg rep
  | token _ _ _ _ _ _ _ _ _ _ _ _ hm _ _ hx =>
    obtain ⟨t, b, y, hk, rfl⟩ := Token.eff_out (Token.execute_inv hx) x (out ((List.mem_append.mp hg).resolve_right rep))
    exact .inl ⟨id, id, id⟩
  | pair _ _ _ _ _ _ _ _ _ _ _ _ hm _ _ hx => exact pair_from hx x (out ((List.mem_append.mp hg).resolve_right rep))
  | factory _ _ _ _ _ _ _ _ _ _ _ _ hm _ _ hx =>
    rcases Factory.eff_out (Factory.execute_inv hx) x (out ((List.mem_append.mp hg).resolve_right rep)) with ⟨_, _, _, _, rfl⟩ | ⟨_, _, rfl⟩ <;>
      exact .inl ⟨id, id, id⟩
  | router _ _ _ _ _ _ _ _ _ _ _ _ hm _ _ hx => exact .inl (router_from hx x (out ((List.mem_append.mp hg).resolve_right rep)))
  | other u t m fu i me w1 admin ms hme hm hc =>
    simp only [step, bind_eq_ok, hme, pure_eq_ok, Prod.mk.injEq, Prod.exists] at h
    obtain ⟨_, h0, _, _, w2, h2, w3, fs3, h3, _, h4⟩ := h
    cases h0
    unfold callExecute at h3
    simp only [(moveCoins_inv h2).contracts, hc, bind_eq_ok, pure_eq_ok, Prod.mk.injEq] at h3
    obtain ⟨_, _, ms', hms, _, rfl⟩ := h3
    rw [← h4] at hg
    have := (List.mem_append.mp hg).resolve_right rep
    simp only [List.mem_map, Frame.msg.injEq] at this
    obtain ⟨_, h1, _, rfl⟩ := this
    exact .inr (.inr ⟨_, _, _, hms, h1⟩)
  | inst _ _ code m funds _ k _ _ _ fs hk' _ _ hm hx => exact inst_from hx ((List.mem_append.mp hg).resolve_right rep)
  | replyPair _ _ _ _ _ _ _ _ hx =>
    simp only [Pair.reply, bind_eq_ok, pure_eq_ok, Prod.mk.injEq] at hx
    obtain ⟨_, _, _, _, _, rfl⟩ := hx
    cases hg
  | replyFactory _ _ _ _ _ _ _ _ hx =>
    obtain ⟨_, _, _, _, _, _, _, _, _, _, rfl, _⟩ := Factory.reply_inv hx
    cases hg
  | replyOther me i cr admin ms hc =>
    simp only [step, hc, bind_eq_ok, pure_eq_ok, Prod.mk.injEq] at h
    obtain ⟨ms', hms, _, h2⟩ := h
    rw [← h2] at hg
    simp only [List.mem_map, Frame.msg.injEq] at hg
    obtain ⟨_, h1, _, rfl⟩ := hg
    exact .inr (.inr ⟨_, _, _, hms, h1⟩)

/-- A property of worlds and waiting frames that every step keeps holds at every frame that is executed. -/
theorem trace_keep {c : Chain} {adv : Adv} {P : World → List Frame → Prop}
    (hs : ∀ n w f w' fs rest, P w (f :: rest) → step c adv n w f = .ok (w', fs) → P w' (fs ++ rest)) :
    ∀ {n : Nat} {w : World} {fs : List Frame}, P w fs → ∀ x ∈ trace c adv n w fs, ∃ rest, P x.1 (x.2 :: rest)
  | _, _, [], _, _, hx => by simp [trace] at hx
  | 0, _, _ :: _, _, _, hx => by simp [trace] at hx
  | n + 1, w, f :: fs, hp, x, hx => by
    simp only [trace, List.mem_cons] at hx
    rcases hx with rfl | hx
    · exact ⟨fs, hp⟩
    · split at hx
      · exact trace_keep hs (hs _ _ _ _ _ _ hp ‹_›) x hx
      · cases hx

end ClockL

/-- **C107.** No trade goes stale: whatever is not a deposit and concerns no allowance (swaps, routes, withdrawals, transfers, new pairs,
administration) does the same at any two moments, if third-party contracts that are called do the same and leave allowances and deposits alone. -/
theorem C107_trade {c : Chain} {adv : Adv} (ha : ∀ n a ms, adv.act n a = .ok ms → ∀ x ∈ ms, ¬ Spends x.msg ∧ ¬ Dates x.msg ∧ ¬ Deposits x.msg)
    {m : CosmosMsg} (hm : ¬ Spends m ∧ ¬ Dates m ∧ ¬ Deposits m) (gas : Nat) (w : World) (signer : Addr) (b : Block) :
    runTx c adv gas (w.at_ b) signer m = (runTx c adv gas w signer m).map (World.at_ · b) := by
  refine C107_clock fun x hx e he => ?_
  obtain ⟨rest, h⟩ := trace_keep (P := fun _ fs => ∀ a sm, .msg a sm ∈ fs → Simple sm.msg) (fun n w f w' fs rest hp hs a sm hg => by
    rcases List.mem_append.mp hg with hg | hg
    · rcases step_from hs hg with h | ⟨⟨u, d, rfl, h⟩, _⟩ | ⟨k, a, ms, h1, h2⟩
      · exact h
      · exact absurd h (hp _ _ (List.mem_cons_self ..)).2.2
      · exact ha _ _ _ h1 _ h2
    · exact hp a sm (List.mem_cons_of_mem _ hg)) (fun a sm h => by
      simp only [List.mem_singleton, Frame.msg.injEq] at h
      obtain ⟨_, rfl⟩ := h
      exact hm) x hx
  obtain ⟨v, f⟩ := x
  have never : ∀ {e : Expiration} {o : Option Expiration}, ¬ (o ≠ none ∧ o ≠ some .never) → e ∈ o.toList → (Past w.block e ↔ Past b e) := by
    intro e o h1 h2
    cases o with
    | none => cases h2
    | some d =>
      simp only [Option.toList_some, List.mem_singleton] at h2
      subst h2
      cases e with
      | never => exact Iff.rfl
      | _ => exact absurd ⟨nofun, nofun⟩ h1
  unfold expirationsAt at he
  split at he
  · rename_i v' u t em fu i heq
    cases heq
    have h1 := h _ _ (List.mem_cons_self ..)
    split at he
    · split at he
      · unfold expirationsOf at he
        split at he
        · exact absurd trivial h1.1
        · exact absurd trivial h1.1
        · exact absurd trivial h1.1
        · exact never h1.2.1 he
        · exact never h1.2.1 he
        · cases he
      · cases he
    · cases he
  · cases he

/-- None of the allowances of the tokens ever expires. -/
def Undated (w : World) : Prop :=
  ∀ a adm s, w.contracts a = some ⟨adm, .token s⟩ → ∀ k al, s.allowances.get k = some al → al.expires = .never

namespace ClockL

theorem undated_set {w w1 : World} (h : Undated w) (hc : w1.contracts = w.contracts) {me : Addr} {adm : Option Addr} {s : CState}
    (hs : ∀ t, s = .token t → ∀ k al, t.allowances.get k = some al → al.expires = .never) : Undated (w1.setContract me ⟨adm, s⟩) := by
  intro a adm' t ha
  simp only [World.setContract] at ha
  split at ha
  · cases ha; exact hs t rfl
  · rw [hc] at ha; exact h a adm' t ha

theorem token_undated {api : Api} {blk : Block} {s s' : TokenState} {u : Addr} {m : ExecMsg} {r : Response} {t : Str} {fu : List Coin}
    (hd : ¬ Dates (.exec t m fu)) (h : Token.execute api blk s u m = .ok (s', r))
    (hs : ∀ k al, s.allowances.get k = some al → al.expires = .never) : ∀ k al, s'.allowances.get k = some al → al.expires = .never := by
  have hb := (execute_book h).2.1
  have hs1 : ∀ o sp al, s.book.allow o sp = some al → al.2 = .never := by
    intro o sp al ha
    simp only [TokenState.book, Option.map_eq_some_iff] at ha
    obtain ⟨x, h1, rfl⟩ := ha
    exact hs _ _ h1
  suffices key : ∀ o sp al, (s.book.after u m).allow o sp = some al → al.2 = .never by
    rintro ⟨o, sp⟩ al hal
    exact key o sp (al.amount, al.expires) (by rw [← hb]; simp only [TokenState.book, hal]; rfl)
  have dflt : ∀ {e : Option Expiration} {d : Expiration}, ¬ (e ≠ none ∧ e ≠ some .never) → d = .never → e.getD d = .never := by
    intro e d h1 h2
    cases e with
    | none => exact h2
    | some e =>
      cases e with
      | never => rfl
      | _ => exact absurd ⟨nofun, nofun⟩ h1
  have spend : ∀ {b : Book} {o sp : Addr} {x : Nat}, (∀ p q al, b.allow p q = some al → al.2 = .never) →
      ∀ p q al, (b.spend o sp x).allow p q = some al → al.2 = .never := by
    intro b o sp x hb p q al ha
    simp only [Book.spend] at ha
    split at ha
    · obtain ⟨y, h1, rfl⟩ := Option.map_eq_some_iff.mp ha
      exact hb _ _ y h1
    · exact hb _ _ _ ha
  cases m
  case increaseAllowance q x e =>
    intro o sp al ha
    simp only [Book.after] at ha
    split at ha
    · split at ha
      · rename_i h1
        cases ha
        exact dflt hd (hs1 _ _ _ h1)
      · cases ha
        exact dflt hd rfl
    · exact hs1 _ _ _ ha
  case decreaseAllowance q x e =>
    intro o sp al ha
    simp only [Book.after] at ha
    split at ha
    · obtain ⟨y, h1, h2⟩ := Option.bind_eq_some_iff.mp ha
      split at h2
      · cases h2
        exact dflt hd (hs1 _ _ _ h1)
      · cases h2
    · exact hs1 _ _ _ ha
  case transferFrom => exact spend hs1
  case sendFrom => exact spend hs1
  case burnFrom => exact spend hs1
  all_goals exact hs1

theorem step_undated {c : Chain} {adv : Adv} {n : Nat} {w w' : World} {f : Frame} {fs : List Frame} (hw : Undated w)
    (hf : ∀ a sm, f = .msg a sm → ¬ Dates sm.msg) (h : StepI c adv n w f w' fs) : Undated w' := by
  cases h with
  | bank _ _ _ _ _ _ _ _ hm => exact fun a adm s => by rw [(moveCoins_inv hm).contracts]; exact hw a adm s
  | token _ _ _ _ _ _ _ _ _ _ _ _ hm _ hc hx =>
    refine undated_set hw (moveCoins_inv hm).contracts ?_
    rintro t ⟨⟩
    exact token_undated (hf _ _ rfl) hx (hw _ _ _ hc)
  | pair _ _ _ _ _ _ _ _ _ _ _ _ hm _ _ hx => exact undated_set hw (moveCoins_inv hm).contracts nofun
  | factory _ _ _ _ _ _ _ _ _ _ _ _ hm _ _ hx => exact undated_set hw (moveCoins_inv hm).contracts nofun
  | router _ _ _ _ _ _ _ _ _ _ _ _ hm _ _ hx => exact undated_set hw (moveCoins_inv hm).contracts nofun
  | other _ _ _ _ _ me _ admin _ hme hm hc => exact fun a adm s => by rw [(moveCoins_inv hm).contracts]; exact hw a adm s
  | inst _ a code m funds _ k _ _ s fs hk' _ _ hm hx =>
    refine undated_set hw (moveCoins_inv hm).contracts ?_
    rintro t rfl
    unfold callInstantiate at hx
    simp only [bind_eq_ok] at hx
    obtain ⟨_, _, hx⟩ := hx
    split at hx <;> simp only [bind_eq_ok, pure_eq_ok, Prod.mk.injEq, Prod.exists, reduceCtorEq, false_and, and_false, exists_false] at hx
    obtain ⟨s, h1, h2, _⟩ := hx
    cases h2
    rw [(Token.instantiate_inv h1).2.2.2.1]
    intro k al h
    cases h
  | migrate _ _ _ _ k me s _ _ hc =>
    refine undated_set hw rfl ?_
    intro t ht
    cases k <;> cases s <;> simp [migrateState] at ht
  | admin _ _ _ _ _ me s _ hc =>
    refine undated_set hw rfl ?_
    rintro t rfl
    exact hw _ _ _ hc
  | replyPair => exact undated_set hw rfl nofun
  | replyFactory => exact undated_set hw rfl nofun
  | replyOther => exact hw

end ClockL

/-- **C107.** Where nobody ever sets an expiration, the clock does not matter at all: if none of the allowances expires, a transaction that
sets no expiration does the same at any two moments, and afterwards no allowance expires. -/
theorem C107_undated {c : Chain} {adv : Adv} (ha : ∀ n a ms, adv.act n a = .ok ms → ∀ x ∈ ms, ¬ Dates x.msg)
    {m : CosmosMsg} (hm : ¬ Dates m) {w : World} (hw : Undated w) (gas : Nat) (signer : Addr) (b : Block) :
    runTx c adv gas (w.at_ b) signer m = (runTx c adv gas w signer m).map (World.at_ · b) ∧
    ∀ w', runTx c adv gas w signer m = .ok w' → Undated w' := by
  have keep : ∀ n v f v' fs rest, (Undated v ∧ ∀ a sm, .msg a sm ∈ f :: rest → ¬ Dates sm.msg) → step c adv n v f = .ok (v', fs) →
      Undated v' ∧ ∀ a sm, .msg a sm ∈ fs ++ rest → ¬ Dates sm.msg := by
    rintro n v f v' fs rest ⟨h1, h2⟩ hs
    refine ⟨step_undated h1 (fun a sm hf => h2 a sm (by rw [hf]; exact List.mem_cons_self ..)) (step_inv hs), fun a sm hg => ?_⟩
    rcases List.mem_append.mp hg with hg | hg
    · rcases step_from hs hg with h | ⟨_, h⟩ | ⟨k, a, ms, h3, h4⟩
      · exact h.2.1
      · exact h.1
      · exact ha _ _ _ h3 _ h4
    · exact h2 a sm (List.mem_cons_of_mem _ hg)
  have init : Undated w ∧ ∀ a sm, .msg a sm ∈ [Frame.msg signer (plain m)] → ¬ Dates sm.msg := by
    refine ⟨hw, fun a sm h => ?_⟩
    simp only [List.mem_singleton, Frame.msg.injEq] at h
    obtain ⟨_, rfl⟩ := h
    exact hm
  refine ⟨C107_clock fun x hx e he => ?_, fun w' hx => ?_⟩
  · obtain ⟨rest, hu, h⟩ := trace_keep (P := fun v fs => Undated v ∧ ∀ a sm, .msg a sm ∈ fs → ¬ Dates sm.msg) keep init x hx
    obtain ⟨v, f⟩ := x
    have never : ∀ {e : Expiration} {o : Option Expiration}, ¬ (o ≠ none ∧ o ≠ some .never) → e ∈ o.toList → (Past w.block e ↔ Past b e) := by
      intro e o h1 h2
      cases o with
      | none => cases h2
      | some d =>
        simp only [Option.toList_some, List.mem_singleton] at h2
        subst h2
        cases e with
        | never => exact Iff.rfl
        | _ => exact absurd ⟨nofun, nofun⟩ h1
    unfold expirationsAt at he
    split at he
    · rename_i v' u t em fu i heq
      cases heq
      have h1 := h _ _ (List.mem_cons_self ..)
      split at he
      · split at he
        · rename_i adm s hs
          have old : ∀ {o : Addr}, e ∈ ((s.allowances.get (o, u)).map Allowance.expires).toList → (Past w.block e ↔ Past b e) := by
            intro o h2
            cases hg : s.allowances.get (o, u) with
            | none => rw [hg] at h2; cases h2
            | some al =>
              rw [hg] at h2
              simp only [Option.map_some, Option.toList_some, List.mem_singleton] at h2
              rw [h2, hu _ _ _ hs _ _ hg]
              exact Iff.rfl
          unfold expirationsOf at he
          split at he
          · exact old he
          · exact old he
          · exact old he
          · exact never h1 he
          · exact never h1 he
          · cases he
        · cases he
      · cases he
    · cases he
  · simp only [runTx, bind_eq_ok, Prod.exists, pure_eq_ok] at hx
    obtain ⟨k, v, hx, rfl⟩ := hx
    have : ∀ {n n' : Nat} {v v' : World} {fs : List Frame}, (Undated v ∧ ∀ a sm, .msg a sm ∈ fs → ¬ Dates sm.msg) →
        run c adv n v fs = .ok (n', v') → Undated v' := by
      intro n
      induction n with
      | zero =>
        intro n' v v' fs hp hr
        cases fs with
        | nil => simp only [run] at hr; cases hr; exact hp.1
        | cons => simp only [run] at hr; cases hr
      | succ n ih =>
        intro n' v v' fs hp hr
        cases fs with
        | nil => simp only [run] at hr; cases hr; exact hp.1
        | cons f fs =>
          simp only [run, bind_eq_ok, Prod.exists] at hr
          obtain ⟨v1, fs1, h1, h2⟩ := hr
          exact ih (keep _ _ _ _ _ _ hp h1) h2
    exact this init hx

/-- Transactions one after the other, each at a moment of its own; one that fails changes nothing. -/
def runAt (c : Chain) (adv : Adv) (gas : Nat) : List (Block × Addr × CosmosMsg) → World → World
  | [], w => w
  | (b, u, m) :: l, w =>
    match runTx c adv gas (w.at_ b) u m with
    | .ok w' => runAt c adv gas l w'
    | .error _ => runAt c adv gas l (w.at_ b)

/-- **C107.** So a whole history leads to the same state whatever the moments of its transactions, if nobody sets an expiration. -/
theorem C107_history {c : Chain} {adv : Adv} (ha : ∀ n a ms, adv.act n a = .ok ms → ∀ x ∈ ms, ¬ Dates x.msg) (gas : Nat) :
    ∀ {l l' : List (Block × Addr × CosmosMsg)}, l.map Prod.snd = l'.map Prod.snd → (∀ x ∈ l, ¬ Dates x.2.2) →
    ∀ {w w' : World}, Undated w → w.contracts = w'.contracts → w.bank = w'.bank → w.next = w'.next →
    (runAt c adv gas l w).contracts = (runAt c adv gas l' w').contracts ∧ (runAt c adv gas l w).bank = (runAt c adv gas l' w').bank ∧
      (runAt c adv gas l w).next = (runAt c adv gas l' w').next
  | [], [], _, _, _, _, _, h1, h2, h3 => ⟨h1, h2, h3⟩
  | [], _ :: _, h, _, _, _, _, _, _, _ => by cases h
  | _ :: _, [], h, _, _, _, _, _, _, _ => by cases h
  | (b, u, m) :: l, (b', u', m') :: l', h, hd, w, w', hw, h1, h2, h3 => by
    simp only [List.map_cons, List.cons.injEq, Prod.mk.injEq] at h
    obtain ⟨⟨rfl, rfl⟩, h⟩ := h
    have hd' : ∀ x ∈ l, ¬ Dates x.2.2 := fun x hx => hd x (List.mem_cons_of_mem _ hx)
    have hm : ¬ Dates m := hd _ (List.mem_cons_self ..)
    have e : w'.at_ b' = (w.at_ b).at_ b' := by
      cases w; cases w'; simp only at h1 h2 h3; subst h1 h2 h3; rfl
    obtain ⟨g1, g2⟩ := C107_undated (c := c) ha hm (show Undated (w.at_ b) from hw) gas u b'
    simp only [runAt, e, g1]
    cases hx : runTx c adv gas (w.at_ b) u m with
    | error err => exact C107_history ha gas h hd' hw rfl rfl rfl
    | ok v => exact C107_history ha gas h hd' (g2 v hx) rfl rfl rfl

/-! ## Examples -/

namespace Demo

theorem idle_quiet {P : SubMsg → Prop} : ∀ n a ms, idle.act n a = .ok ms → ∀ x ∈ ms, P x := by
  intro n a ms h x hx
  cases h
  cases hx

/-- A swap, a hundred years later. -/
example : runTx chain idle 20 (deployed.at_ ⟨10 ^ 9, 10 ^ 19⟩) user (.exec tA (.send pAB 1000 (.swap none none none)) []) =
    (runTx chain idle 20 deployed user (.exec tA (.send pAB 1000 (.swap none none none)) [])).map (World.at_ · ⟨10 ^ 9, 10 ^ 19⟩) ∧
    isOk (runTx chain idle 20 deployed user (.exec tA (.send pAB 1000 (.swap none none none)) [])) = true :=
  ⟨C107_trade idle_quiet ⟨id, id, id⟩ _ _ _ _, by decide +kernel⟩

/-- An allowance until block 5. -/
def lendUntil : CosmosMsg := .exec tA (.increaseAllowance user2 100 (some (.atHeight 5))) []
def lentUntil : World := worldOf (runTx chain idle 20 deployed user lendUntil)
theorem lentUntil_run : runTx chain idle 20 deployed user lendUntil = .ok lentUntil := worldOf_eq (by decide +kernel)
def useIt : CosmosMsg := .exec tA (.transferFrom user user2 40) []
/-- It matters whether it is used before that block or not, so that the hypotheses cannot be dropped. -/
example : Dates lendUntil ∧ isOk (runTx chain idle 20 (lentUntil.at_ ⟨4, 0⟩) user2 useIt) = true ∧
    isOk (runTx chain idle 20 (lentUntil.at_ ⟨5, 0⟩) user2 useIt) = false := ⟨⟨nofun, nofun⟩, by decide +kernel, by decide +kernel⟩
/-- Between blocks 1 and 4 it does not. -/
example : runTx chain idle 20 (lentUntil.at_ ⟨4, 0⟩) user2 useIt = (runTx chain idle 20 lentUntil user2 useIt).map (World.at_ · ⟨4, 0⟩) := by
  refine C107_clock fun x hx e he => ?_
  have h1 : ((trace chain idle 20 lentUntil [.msg user2 (plain useIt)]).flatMap (expirationsAt chain)) = [.atHeight 5] := by decide +kernel
  have h2 : e ∈ (trace chain idle 20 lentUntil [.msg user2 (plain useIt)]).flatMap (expirationsAt chain) :=
    List.mem_flatMap.mpr ⟨x, hx, he⟩
  rw [h1, List.mem_singleton] at h2
  subst h2
  have h3 : lentUntil.block = ⟨1, 1⟩ := by decide +kernel
  simp [Past, h3]

/-- In a world without contracts no allowance expires, so `setup` may be spread over any time. -/
example : ∀ ts : List Block, ts.length = setup.length →
    (runAt chain idle 20 (ts.zip (setup.map fun m => (user, m))) genesis).contracts =
      (runAt chain idle 20 (setup.map fun m => (⟨1, 1⟩, user, m)) genesis).contracts := by
  intro ts hl
  refine (C107_history idle_quiet 20 ?_ ?_ (fun a adm s h => by cases h) rfl rfl rfl).1
  · simp [List.map_snd_zip (l₁ := ts) (l₂ := setup.map fun m => (user, m)) (by simp [hl]), Function.comp_def]
  · rintro ⟨b, u, m⟩ hx
    have := (List.of_mem_zip hx).2
    simp only [List.mem_map, Prod.mk.injEq] at this
    obtain ⟨y, hy, _, rfl⟩ := this
    simp only [setup, List.mem_cons, List.not_mem_nil, or_false] at hy
    rcases hy with rfl | rfl | rfl | rfl | rfl | rfl | rfl | rfl | rfl | rfl | rfl | rfl | rfl <;> first | exact id | exact fun h => h.1 rfl

end Demo
end Halo
