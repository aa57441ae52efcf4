import Verif.Spec.Steps
import Verif.Lemmas.RouterL
import Verif.Lemmas.FactoryL
import Verif.Lemmas.PairInv
import Verif.Lemmas.TokenL
import Verif.Props.Witness
/-! # C80: requests cannot loop -/

namespace Halo
open _root_.Halo.Spec

/-- All steps a stack can take. -/
def stackSteps (fs : List Frame) : Nat := (fs.map frameSteps).sum

theorem stackSteps_append (fs gs : List Frame) : stackSteps (fs ++ gs) = stackSteps fs + stackSteps gs := by
  simp [stackSteps]

theorem stackSteps_cons (f : Frame) (fs : List Frame) : stackSteps (f :: fs) = frameSteps f + stackSteps fs := by
  simp [stackSteps]

theorem stackSteps_reply (a : Addr) (id : Option Nat) (x : Option Addr) :
    stackSteps (replyFrame a id x) = if id.isSome then 1 else 0 := by
  cases id <;> rfl

theorem stackSteps_frames (a : Addr) (r : Response) :
    stackSteps (frames a r) = (r.messages.map fun m => frameSteps (.msg a m)).sum := by
  simp [stackSteps, frames, Function.comp_def]

theorem frameSteps_plain (a : Addr) (m : CosmosMsg) : frameSteps (.msg a (plain m)) = msgSteps m := rfl

theorem msgSteps_exec (t : Str) (m : ExecMsg) (fu : List Coin) : msgSteps (.exec t m fu) = execSteps m := rfl

theorem intoMsg_steps (x : Asset) (dst : Str) : msgSteps (x.intoMsg dst) = 1 := by
  obtain ⟨i, n⟩ := x
  cases i <;> rfl

theorem collectMsg_steps (me sender : Addr) (i : AssetInfo) (d : Nat) :
    ((Pair.collectMsg me sender i d).map msgSteps).sum ≤ 1 := by
  cases i with
  | native => simp [Pair.collectMsg]
  | token t => unfold Pair.collectMsg; split <;> simp [msgSteps, execSteps]

theorem hopMsgs_steps (me dst : Addr) (ops : List SwapOp) :
    ((Router.hopMsgs me dst ops).map msgSteps).sum = 4 * ops.length := by
  induction ops with
  | nil => rfl
  | cons o t ih =>
    cases t with
    | nil => rfl
    | cons o' t => simp only [Router.hopMsgs, List.map_cons, List.sum_cons, ih, List.length_cons, msgSteps, execSteps]; omega

theorem token_steps {api : Api} {blk : Block} {s s' : TokenState} {me sender : Addr} {m : ExecMsg} {r : Response}
    (h : Token.execute api blk s sender m = .ok (s', r)) : stackSteps (frames me r) + 1 ≤ execSteps m := by
  have h := Token.execute_inv h
  cases h <;> simp [stackSteps_frames, execSteps, frameSteps_plain, msgSteps]

theorem pair_steps {api : Api} {q : Querier} {s s' : Pair.State} {me sender : Addr} {funds : List Coin} {m : ExecMsg} {r : Response}
    (h : Pair.execute api q me s sender funds m = .ok (s', r)) : stackSteps (frames me r) + 1 ≤ execSteps m := by
  rcases Pair.execute_inv h with ⟨_, _, _, _, _, rfl, hr⟩ | ⟨_, _, rfl, hr⟩ | ⟨_, _, _, rfl, hr⟩
  · obtain ⟨_, _, _, _, _, _, _, _, _, h⟩ := Pair.receive_swap_inv hr
    rw [h.h_resp, stackSteps_frames]
    split <;> simp [frameSteps_plain, intoMsg_steps, execSteps, hookSteps]
  · obtain ⟨_, _, _, _, _, _, _, _, _, _, h⟩ := Pair.receive_withdraw_inv hr
    rw [h.h_resp, stackSteps_frames]
    simp only [List.map_cons, List.map_nil, List.sum_cons, List.sum_nil, frameSteps_plain, intoMsg_steps]
    simp [execSteps, hookSteps, msgSteps]
  · obtain ⟨_, p0, p1, d0, d1, _, _, _, h⟩ := Pair.provide_inv hr
    rw [h.h_resp, stackSteps_frames]
    have h0 := collectMsg_steps me sender p0.info d0
    have h1 := collectMsg_steps me sender p1.info d1
    simp only [List.map_map, Function.comp_def, frameSteps_plain]
    change ((Pair.collectMsg _ _ _ _ ++ _ ++ _).map msgSteps).sum + 1 ≤ _
    simp only [List.map_append, List.sum_append, execSteps, List.map_cons,
      List.map_nil, List.sum_cons, List.sum_nil, msgSteps_exec]
    omega

theorem factory_steps {api : Api} {q : Querier} {s s' : Factory.State} {me sender : Addr} {m : ExecMsg} {r : Response}
    (h : Factory.execute api q me s sender m = .ok (s', r)) : stackSteps (frames me r) + 1 ≤ execSteps m := by
  have h := Factory.execute_inv h
  cases h with
  | migrate => simp [stackSteps_frames, frameSteps_plain, msgSteps, execSteps]
  | _ => simp [stackSteps_frames, execSteps, msgSteps, frameSteps]

theorem router_steps {api : Api} {q : Querier} {s s' : Router.State} {me sender : Addr} {m : ExecMsg} {r : Response}
    (h : Router.execute api q me s sender m = .ok (s', r)) : stackSteps (frames me r) + 1 ≤ execSteps m := by
  have key : ∀ {S ops mn dst}, Router.Request S ops mn dst sender m →
      stackSteps (frames me r) ≤ 4 * ops.length + if mn.isSome then 1 else 0 := by
    intro S ops mn dst hq
    obtain ⟨_, last, _, _, ⟨rfl, rfl⟩ | ⟨x, prev, rfl, _, rfl⟩⟩ := Router.request_inv hq h
    · simp [stackSteps_frames, Function.comp_def, frameSteps_plain, ← hopMsgs_steps me (dst.getD S)]
    · simp [stackSteps_frames, Function.comp_def, frameSteps_plain, ← hopMsgs_steps me (dst.getD S), msgSteps_exec, execSteps]
  cases m with
  | receive sd x hk =>
    cases hk with
    | executeSwapOperations o mn t => have := key (.hook (by_ := sd) _ x); simp only [execSteps, hookSteps]; omega
    | _ =>
      simp only [Router.execute, Router.receiveCw20, bind_eq_ok] at h
      obtain ⟨_, _, h⟩ := h
      cases h
  | executeSwapOperations o mn t => have := key .direct; simp only [execSteps]; omega
  | executeSwapOperation o t =>
    simp only [Router.execute, Router.executeSwapOperation, bind_eq_ok, pure_eq_ok, Prod.mk.injEq] at h
    obtain ⟨_, _, _, _, _, _, info, _, x, _, _, rfl⟩ := h
    cases o.offer <;>
      simp [stackSteps_frames, frameSteps_plain, Router.assetIntoSwapMsg, msgSteps, execSteps, hookSteps]
  | assertMinimumReceive _ _ _ _ =>
    simp only [Router.execute, Router.assertMinimumReceive, bind_eq_ok, pure_eq_ok, Prod.mk.injEq] at h
    obtain ⟨_, _, _, _, _, _, _, _, _, rfl⟩ := h
    simp [stackSteps_frames, execSteps]
  | _ => cases h

theorem inst_steps {c : Chain} {adv : Adv} {n : Nat} {me sender : Addr} {k : Kind} {m : InstMsg} {s : CState}
    {fs : List Frame} (hk : k ≠ .other) (h : callInstantiate c adv n me sender k m = .ok (s, fs)) (a : Option Str) (code : Nat)
    (funds : List Coin) : stackSteps fs + 1 ≤ msgSteps (.inst a code m funds) := by
  unfold callInstantiate at h
  simp only [bind_eq_ok] at h
  obtain ⟨_, _, h⟩ := h
  split at h <;> try simp only [bind_eq_ok, pure_eq_ok, Prod.mk.injEq, Prod.exists] at h
  · obtain ⟨_, _, _, rfl⟩ := h; simp [stackSteps, msgSteps]
  · obtain ⟨_, _, h, _, rfl⟩ := h
    simp only [Pair.instantiate, bind_eq_ok, pure_eq_ok, Prod.mk.injEq] at h
    obtain ⟨_, _, _, _, _, _, _, rfl⟩ := h
    simp [stackSteps_frames, msgSteps, frameSteps]
  · obtain ⟨_, _, h, _, rfl⟩ := h
    simp only [Factory.instantiate, bind_eq_ok, pure_eq_ok, Prod.mk.injEq] at h
    obtain ⟨_, _, _, rfl⟩ := h
    simp [stackSteps_frames, msgSteps]
  · obtain ⟨_, _, h, _, rfl⟩ := h
    simp only [Router.instantiate, bind_eq_ok, pure_eq_ok, Prod.mk.injEq] at h
    obtain ⟨_, _, _, rfl⟩ := h
    simp [stackSteps_frames, msgSteps]
  · exact absurd rfl hk
  · cases h

theorem step_steps {c : Chain} {adv : Adv} {n : Nat} {w w' : World} {f : Frame} {fs : List Frame}
    (h : step c adv n w f = .ok (w', fs)) (hf : ¬ RunsForeign c w f) : stackSteps fs + 1 ≤ frameSteps f := by
  have h := step_inv h
  cases h with
  | bank | migrate | admin => simp [stackSteps_reply, frameSteps, msgSteps]
  | token _ _ _ _ _ me _ _ _ _ _ _ _ _ _ hx =>
    have := token_steps (me := me) hx
    simp only [stackSteps_append, stackSteps_reply, frameSteps, msgSteps]; omega
  | pair _ _ _ _ _ me _ _ _ _ _ _ _ _ _ hx =>
    have := pair_steps (me := me) hx
    simp only [stackSteps_append, stackSteps_reply, frameSteps, msgSteps]; omega
  | factory _ _ _ _ _ me _ _ _ _ _ _ _ _ _ hx =>
    have := factory_steps (me := me) hx
    simp only [stackSteps_append, stackSteps_reply, frameSteps, msgSteps]; omega
  | router _ _ _ _ _ me _ _ _ _ _ _ _ _ _ hx =>
    have := router_steps (me := me) hx
    simp only [stackSteps_append, stackSteps_reply, frameSteps, msgSteps]; omega
  | other _ _ _ _ _ me _ admin _ hme _ hc => exact absurd ⟨me, admin, hme, hc⟩ hf
  | inst _ a code m funds _ k _ _ _ fs hk _ _ _ hx =>
    have := inst_steps (by rintro rfl; exact hf hk) hx a code funds
    simp only [stackSteps_append, stackSteps_reply, frameSteps]; omega
  | replyPair _ _ _ _ _ _ _ _ hx =>
    simp only [Pair.reply, bind_eq_ok, pure_eq_ok, Prod.mk.injEq] at hx
    obtain ⟨_, _, _, _, _, rfl⟩ := hx
    simp [stackSteps_frames, frameSteps]
  | replyFactory _ _ _ _ _ _ _ _ hx =>
    obtain ⟨_, _, _, _, _, _, _, _, _, _, rfl, _⟩ := Factory.reply_inv hx
    simp [stackSteps_frames, frameSteps]
  | replyOther _ _ _ admin _ hc => exact absurd ⟨admin, hc⟩ hf

theorem trace_steps {c : Chain} {adv : Adv} : ∀ {n : Nat} {w : World} {fs : List Frame},
    (∀ e ∈ trace c adv n w fs, ¬ RunsForeign c e.1 e.2) → (trace c adv n w fs).length ≤ stackSteps fs := by
  intro n
  induction n with
  | zero => intro w fs h; cases fs <;> simp [trace]
  | succ n ih =>
    intro w fs h
    cases fs with
    | nil => simp [trace]
    | cons f fs =>
      rw [stackSteps_cons]
      have hf : 1 ≤ frameSteps f := by
        cases f with
        | reply => exact Nat.le_refl 1
        | msg s sm =>
          obtain ⟨m, id⟩ := sm
          refine Nat.le_trans ?_ (Nat.le_add_right _ _)
          cases m with
          | exec t m fu => cases m <;> simp only [msgSteps, execSteps] <;> omega
          | inst a k m fu => cases m <;> simp [msgSteps]
          | _ => exact Nat.le_refl 1
      cases hs : step c adv n w f with
      | error e => simp only [trace, hs, List.length_cons, List.length_nil]; omega
      | ok p =>
        obtain ⟨w', fs'⟩ := p
        rw [trace_cons hs] at h ⊢
        have h1 := ih (fun e he => h e (List.mem_cons_of_mem _ he))
        have h2 := step_steps hs (h _ (List.mem_cons_self ..))
        rw [stackSteps_append] at h1
        simp only [List.length_cons]
        omega

/-- C80: whatever the state of the chain and however much gas there is, a transaction that never hands control to foreign code
takes at most as many steps as its text allows, whether it succeeds or fails. -/
theorem C80_bounded (c : Chain) (adv : Adv) (gas : Nat) (w : World) (signer : Addr) (m : CosmosMsg)
    (h : ∀ e ∈ trace c adv gas w [.msg signer (plain m)], ¬ RunsForeign c e.1 e.2) :
    (trace c adv gas w [.msg signer (plain m)]).length ≤ msgSteps m := by
  have := trace_steps h
  simpa [stackSteps, frameSteps, plain] using this

theorem bind_ok_congr {α β : Type} {x : R α} {f g : α → R β} (h : ∀ a, x = .ok a → f a = g a) : (x >>= f) = (x >>= g) := by
  cases x with
  | error => rfl
  | ok a => exact h a rfl

theorem callExecute_congr {c : Chain} {adv adv' : Adv} {n n' : Nat} {w : World} {me sender : Addr} {fu : List Coin} {m : ExecMsg}
    (hq : adv.query n = adv'.query n') (hf : ∀ adm, w.contracts me ≠ some ⟨adm, .other⟩) :
    callExecute c adv n w me sender fu m = callExecute c adv' n' w me sender fu m := by
  simp only [callExecute, hq]
  split <;> try rfl
  rename_i adm hc
  exact absurd hc (hf adm)

theorem callInstantiate_congr {c : Chain} {adv adv' : Adv} {n n' : Nat} {me sender : Addr} {k : Kind} {m : InstMsg}
    (hk : k ≠ .other) : callInstantiate c adv n me sender k m = callInstantiate c adv' n' me sender k m := by
  cases k <;> first | exact absurd rfl hk | (cases m <;> rfl)

/-- A step of the four contracts does not depend on what foreign code would do, nor on the gas that is left. -/
theorem step_congr {c : Chain} {adv adv' : Adv} {n n' : Nat} {w : World} {f : Frame} (hq : adv.query n = adv'.query n')
    (hf : ¬ RunsForeign c w f) : step c adv n w f = step c adv' n' w f := by
  cases f with
  | reply a id x =>
    simp only [step, hq]
    split <;> try rfl
    rename_i adm hc
    exact absurd ⟨adm, hc⟩ hf
  | msg s sm =>
    obtain ⟨m, id⟩ := sm
    cases m with
    | exec t m fu =>
      refine bind_ok_congr fun me hr => bind_ok_congr fun _ _ => bind_ok_congr fun w1 hm => ?_
      rw [callExecute_congr hq fun adm h => hf ⟨me, adm, hr, ?_⟩]
      rwa [(moveCoins_inv hm).contracts] at h
    | inst a code m fu =>
      refine bind_ok_congr fun k hk => bind_ok_congr fun _ _ => bind_ok_congr fun _ _ => bind_ok_congr fun _ _ => ?_
      rw [callInstantiate_congr (adv := adv) (adv' := adv') (n := n) (n' := n')]
      rintro rfl
      exact hf (okOr_eq_ok.mp hk)
    | _ => rfl

theorem run_congr {c : Chain} {adv adv' : Adv} (hq : ∀ i j, adv.query i = adv'.query j) :
    ∀ {n k n' : Nat} {w w' : World} {fs : List Frame}, run c adv n w fs = .ok (k, w') →
    (∀ e ∈ trace c adv n w fs, ¬ RunsForeign c e.1 e.2) → stackSteps fs ≤ n' → ∃ k', run c adv' n' w fs = .ok (k', w') := by
  intro n
  induction n with
  | zero =>
    intro k n' w w' fs h _ _
    cases fs with
    | nil => rw [run_nil] at h; cases h; exact ⟨_, run_nil⟩
    | cons => cases h
  | succ n ih =>
    intro k n' w w' fs h hf hn
    cases fs with
    | nil => rw [run_nil] at h; cases h; exact ⟨_, run_nil⟩
    | cons f fs =>
      obtain ⟨m, w1, fs1, hm, hs, h⟩ := run_cons_inv h
      cases hm
      rw [trace_cons hs] at hf
      have h0 := hf _ (List.mem_cons_self ..)
      have h2 := step_steps hs h0
      rw [stackSteps_cons] at hn
      obtain ⟨n', rfl⟩ : ∃ j, n' = j + 1 := ⟨n' - 1, by omega⟩
      obtain ⟨k', hk⟩ := ih (n' := n') h (fun e he => hf e (List.mem_cons_of_mem _ he)) (by rw [stackSteps_append]; omega)
      refine ⟨k', ?_⟩
      rw [step_congr (hq n n') h0] at hs
      simp only [run, hs]
      exact hk

/-- C80, gas: if such a transaction succeeds with some amount of gas, it succeeds with the same outcome given any amount of gas
that covers the bound, no matter what foreign code would have done when called. -/
theorem C80_gas {c : Chain} {adv adv' : Adv} (hq : ∀ i j, adv.query i = adv'.query j) {gas gas' : Nat} {w w' : World}
    {signer : Addr} {m : CosmosMsg} (hx : runTx c adv gas w signer m = .ok w')
    (h : ∀ e ∈ trace c adv gas w [.msg signer (plain m)], ¬ RunsForeign c e.1 e.2) (hg : msgSteps m ≤ gas') :
    runTx c adv' gas' w signer m = .ok w' := by
  simp only [runTx, bind_eq_ok, Prod.exists, pure_eq_ok] at hx
  obtain ⟨k, v, hx, rfl⟩ := hx
  obtain ⟨k', hk⟩ := run_congr hq (n' := gas') hx h (by simpa [stackSteps, frameSteps, plain] using hg)
  simp only [runTx, hk]
  rfl

/-! ## A chain with only the four contracts -/

/-- No contract runs foreign code. -/
def OnlyOurs (w : World) : Prop := ∀ a adm, w.contracts a ≠ some ⟨adm, .other⟩

/-- The message neither migrates a contract nor asks the factory to. -/
def Staying : CosmosMsg → Prop
  | .migrate _ _ => False
  | .exec _ (.migratePair _ _) _ => False
  | _ => True

def StayingF : Frame → Prop
  | .msg _ m => Staying m.msg
  | .reply _ _ _ => True

theorem staying_reply {a : Addr} {id : Option Nat} {x : Option Addr} : ∀ g ∈ replyFrame a id x, StayingF g := by
  intro g hg
  obtain ⟨i, _, rfl⟩ := mem_replyFrame hg
  trivial

theorem staying_frames {a : Addr} {r : Response} (h : ∀ m ∈ r.messages, Staying m.msg) : ∀ g ∈ frames a r, StayingF g := by
  intro g hg
  obtain ⟨m, hm, rfl⟩ := mem_frames hg
  exact h m hm

theorem staying_intoMsg (x : Asset) (dst : Str) : Staying (x.intoMsg dst) := by
  obtain ⟨i, n⟩ := x
  cases i <;> trivial

theorem staying_collect {me sender : Addr} {i : AssetInfo} {d : Nat} : ∀ m ∈ Pair.collectMsg me sender i d, Staying m := by
  intro m hm
  cases i with
  | native => simp [Pair.collectMsg] at hm
  | token t =>
    unfold Pair.collectMsg at hm
    simp only [List.mem_singleton] at hm
    subst hm
    trivial

theorem staying_hop {me dst : Addr} {ops : List SwapOp} : ∀ m ∈ Router.hopMsgs me dst ops, Staying m := by
  induction ops with
  | nil => simp [Router.hopMsgs]
  | cons o t ih =>
    cases t with
    | nil => intro m hm; simp only [Router.hopMsgs, List.mem_singleton] at hm; subst hm; trivial
    | cons o' t =>
      intro m hm
      simp only [Router.hopMsgs, List.mem_cons] at hm
      rcases hm with rfl | hm
      · trivial
      · exact ih m hm

theorem token_staying {api : Api} {blk : Block} {s s' : TokenState} {sender : Addr} {m : ExecMsg} {r : Response}
    (h : Token.execute api blk s sender m = .ok (s', r)) : ∀ x ∈ r.messages, Staying x.msg := by
  have h := Token.execute_inv h
  cases h <;> simp [plain, Staying]

theorem pair_staying {api : Api} {q : Querier} {s s' : Pair.State} {me sender : Addr} {funds : List Coin} {m : ExecMsg} {r : Response}
    (h : Pair.execute api q me s sender funds m = .ok (s', r)) : ∀ x ∈ r.messages, Staying x.msg := by
  rcases Pair.execute_inv h with ⟨_, _, _, _, _, rfl, hr⟩ | ⟨_, _, rfl, hr⟩ | ⟨_, _, _, rfl, hr⟩
  · obtain ⟨_, _, _, _, _, _, _, _, _, h⟩ := Pair.receive_swap_inv hr
    rw [h.h_resp]
    split <;> simp [plain, staying_intoMsg]
  · obtain ⟨_, _, _, _, _, _, _, _, _, _, h⟩ := Pair.receive_withdraw_inv hr
    rw [h.h_resp]
    simp only [List.mem_cons, List.not_mem_nil, or_false, plain]
    rintro x (rfl | rfl | rfl)
    · exact staying_intoMsg _ _
    · exact staying_intoMsg _ _
    · trivial
  · obtain ⟨_, p0, p1, d0, d1, _, _, _, h⟩ := Pair.provide_inv hr
    rw [h.h_resp]
    simp only [List.mem_map, List.mem_append, List.mem_singleton]
    rintro x ⟨y, (hy | hy) | rfl, rfl⟩
    · exact staying_collect _ hy
    · exact staying_collect _ hy
    · trivial

theorem factory_staying {api : Api} {q : Querier} {s s' : Factory.State} {me sender : Addr} {t : Str} {fu : List Coin} {m : ExecMsg}
    {r : Response} (hm : Staying (.exec t m fu)) (h : Factory.execute api q me s sender m = .ok (s', r)) :
    ∀ x ∈ r.messages, Staying x.msg := by
  have h := Factory.execute_inv h
  cases h with
  | migrate => exact hm.elim
  | _ => simp [Staying]

theorem router_staying {api : Api} {q : Querier} {s s' : Router.State} {me sender : Addr} {m : ExecMsg} {r : Response}
    (h : Router.execute api q me s sender m = .ok (s', r)) : ∀ x ∈ r.messages, Staying x.msg := by
  have key : ∀ {S ops mn dst}, Router.Request S ops mn dst sender m → ∀ x ∈ r.messages, Staying x.msg := by
    intro S ops mn dst hq
    obtain ⟨_, last, _, _, ⟨rfl, rfl⟩ | ⟨x, prev, rfl, _, rfl⟩⟩ := Router.request_inv hq h
    · simp only [List.mem_map]
      rintro x ⟨y, hy, rfl⟩
      exact staying_hop _ hy
    · simp only [List.mem_map, List.mem_append, List.mem_singleton]
      rintro x ⟨y, hy | rfl, rfl⟩
      · exact staying_hop _ hy
      · trivial
  cases m with
  | receive sd x hk =>
    cases hk with
    | executeSwapOperations o mn t => exact key (.hook (by_ := sd) _ x)
    | _ =>
      simp only [Router.execute, Router.receiveCw20, bind_eq_ok] at h
      obtain ⟨_, _, h⟩ := h
      cases h
  | executeSwapOperations o mn t => exact key .direct
  | executeSwapOperation o t =>
    simp only [Router.execute, Router.executeSwapOperation, bind_eq_ok, pure_eq_ok, Prod.mk.injEq] at h
    obtain ⟨_, _, _, _, _, _, info, _, x, _, _, rfl⟩ := h
    cases o.offer <;> simp [Router.assetIntoSwapMsg, plain, Staying]
  | assertMinimumReceive _ _ _ _ =>
    simp only [Router.execute, Router.assertMinimumReceive, bind_eq_ok, pure_eq_ok, Prod.mk.injEq] at h
    obtain ⟨_, _, _, _, _, _, _, _, _, rfl⟩ := h
    simp
  | _ => cases h

theorem inst_staying {c : Chain} {adv : Adv} {n : Nat} {me sender : Addr} {k : Kind} {m : InstMsg} {s : CState}
    {fs : List Frame} (hk : k ≠ .other) (h : callInstantiate c adv n me sender k m = .ok (s, fs)) :
    s ≠ .other ∧ ∀ g ∈ fs, StayingF g := by
  unfold callInstantiate at h
  simp only [bind_eq_ok] at h
  obtain ⟨_, _, h⟩ := h
  split at h <;> try simp only [bind_eq_ok, pure_eq_ok, Prod.mk.injEq, Prod.exists] at h
  · obtain ⟨_, _, rfl, rfl⟩ := h; exact ⟨nofun, nofun⟩
  · obtain ⟨_, _, h, rfl, rfl⟩ := h
    simp only [Pair.instantiate, bind_eq_ok, pure_eq_ok, Prod.mk.injEq] at h
    obtain ⟨_, _, _, _, _, _, _, rfl⟩ := h
    refine ⟨nofun, staying_frames ?_⟩
    simp [Staying]
  · obtain ⟨_, _, h, rfl, rfl⟩ := h
    simp only [Factory.instantiate, bind_eq_ok, pure_eq_ok, Prod.mk.injEq] at h
    obtain ⟨_, _, _, rfl⟩ := h
    exact ⟨nofun, staying_frames nofun⟩
  · obtain ⟨_, _, h, rfl, rfl⟩ := h
    simp only [Router.instantiate, bind_eq_ok, pure_eq_ok, Prod.mk.injEq] at h
    obtain ⟨_, _, _, rfl⟩ := h
    exact ⟨nofun, staying_frames nofun⟩
  · exact absurd rfl hk
  · cases h

theorem OnlyOurs.set {w w1 : World} (h : OnlyOurs w) (hc : w1.contracts = w.contracts) {me : Addr} {adm : Option Addr} {s : CState}
    (hs : s ≠ .other) : OnlyOurs (w1.setContract me ⟨adm, s⟩) := by
  intro a adm' ha
  simp only [World.setContract] at ha
  split at ha
  · cases ha; exact hs rfl
  · rw [hc] at ha; exact h a adm' ha

theorem not_foreign {c : Chain} (hk : ∀ k, c.codes k ≠ some .other) {w : World} (hw : OnlyOurs w) (f : Frame) :
    ¬ RunsForeign c w f := by
  cases f with
  | reply a _ _ => rintro ⟨adm, h⟩; exact hw _ _ h
  | msg s sm =>
    obtain ⟨m, id⟩ := sm
    cases m with
    | exec => rintro ⟨a, adm, _, h⟩; exact hw _ _ h
    | inst => exact hk _
    | _ => intro h; exact h

theorem only_step {c : Chain} (hk : ∀ k, c.codes k ≠ some .other) {adv : Adv} {n : Nat} {w w' : World} {f : Frame} {fs : List Frame}
    (h : StepI c adv n w f w' fs) (hw : OnlyOurs w) (hf : StayingF f) : OnlyOurs w' ∧ ∀ g ∈ fs, StayingF g := by
  have app : ∀ {fs gs : List Frame}, (∀ g ∈ fs, StayingF g) → (∀ g ∈ gs, StayingF g) → ∀ g ∈ fs ++ gs, StayingF g := by
    intro fs gs h1 h2 g hg
    rcases List.mem_append.mp hg with hg | hg
    · exact h1 g hg
    · exact h2 g hg
  cases h with
  | bank _ _ _ _ _ _ _ _ hm => exact ⟨fun a adm => by rw [(moveCoins_inv hm).contracts]; exact hw a adm, staying_reply⟩
  | token _ _ _ _ _ _ _ _ _ _ _ _ hm _ _ hx =>
    exact ⟨hw.set (moveCoins_inv hm).contracts nofun, app (staying_frames (token_staying hx)) staying_reply⟩
  | pair _ _ _ _ _ _ _ _ _ _ _ _ hm _ _ hx =>
    exact ⟨hw.set (moveCoins_inv hm).contracts nofun, app (staying_frames (pair_staying hx)) staying_reply⟩
  | factory _ _ _ _ _ _ _ _ _ _ _ _ hm _ _ hx =>
    exact ⟨hw.set (moveCoins_inv hm).contracts nofun, app (staying_frames (factory_staying hf hx)) staying_reply⟩
  | router _ _ _ _ _ _ _ _ _ _ _ _ hm _ _ hx =>
    exact ⟨hw.set (moveCoins_inv hm).contracts nofun, app (staying_frames (router_staying hx)) staying_reply⟩
  | other _ _ _ _ _ me _ admin _ hme _ hc => exact absurd hc (hw _ _)
  | inst _ a code m funds _ k _ _ _ fs hk' _ _ hm hx =>
    obtain ⟨h1, h2⟩ := inst_staying (by rintro rfl; exact hk _ hk') hx
    exact ⟨hw.set (moveCoins_inv hm).contracts h1, app h2 staying_reply⟩
  | migrate => exact hf.elim
  | admin _ _ _ _ _ me s _ hc =>
    exact ⟨hw.set rfl (by rintro rfl; exact hw _ _ hc), staying_reply⟩
  | replyPair _ _ _ _ _ _ _ _ hx =>
    simp only [Pair.reply, bind_eq_ok, pure_eq_ok, Prod.mk.injEq] at hx
    obtain ⟨_, _, _, _, _, rfl⟩ := hx
    exact ⟨hw.set rfl nofun, staying_frames nofun⟩
  | replyFactory _ _ _ _ _ _ _ _ hx =>
    obtain ⟨_, _, _, _, _, _, _, _, _, _, rfl, _⟩ := Factory.reply_inv hx
    exact ⟨hw.set rfl nofun, staying_frames nofun⟩
  | replyOther _ _ _ admin _ hc => exact absurd hc (hw _ _)

theorem leaving_step {c : Chain} {adv : Adv} {n : Nat} {w w' : World} {s : Addr} {x : CosmosMsg} {fs : List Frame}
    (h : StepI c adv n w (.msg s (plain x)) w' fs) (hw : OnlyOurs w) (hx : ¬ Staying x) :
    (OnlyOurs w' ∧ ∃ s x, fs = [.msg s (plain x)] ∧ ¬ Staying x) ∨ fs = [] := by
  have hx' : (∃ t k, x = .migrate t k) ∨ ∃ t p k fu, x = .exec t (.migratePair p k) fu := by
    unfold Staying at hx
    split at hx
    · exact .inl ⟨_, _, rfl⟩
    · exact .inr ⟨_, _, _, _, rfl⟩
    · exact absurd trivial hx
  rcases hx' with ⟨t, k, rfl⟩ | ⟨t, p, k, fu, rfl⟩
  · cases h
    exact .inr rfl
  · cases h with
    | token _ _ _ _ _ _ _ _ _ _ _ _ _ _ _ hx => cases hx
    | pair _ _ _ _ _ _ _ _ _ _ _ _ _ _ _ hx => cases hx
    | router _ _ _ _ _ _ _ _ _ _ _ _ _ _ _ hx => cases hx
    | other _ _ _ _ _ _ _ _ _ _ _ hc => exact absurd hc (hw _ _)
    | factory _ _ _ _ _ me _ _ _ _ _ _ hm _ _ hx =>
      cases Factory.execute_inv hx
      exact .inl ⟨hw.set (moveCoins_inv hm).contracts nofun, me, _, rfl, id⟩

/-- C80, nothing else deployed: while only the four contracts exist on the chain, every transaction whatsoever takes at most as
many steps as its text allows, whatever the state, the signer and the gas. -/
theorem C80_closed {c : Chain} (hk : ∀ k, c.codes k ≠ some .other) {w : World} (hw : OnlyOurs w) (adv : Adv) (gas : Nat)
    (signer : Addr) (m : CosmosMsg) : (trace c adv gas w [.msg signer (plain m)]).length ≤ msgSteps m := by
  apply C80_bounded
  by_cases hm : Staying m
  · intro e he
    obtain ⟨rest, h, _⟩ := trace_all (P := fun w fs => OnlyOurs w ∧ ∀ f ∈ fs, StayingF f) (fun n w f w' fs rest hp hs => by
      obtain ⟨h1, h2⟩ := only_step hk hs hp.1 (hp.2 _ (List.mem_cons_self ..))
      refine ⟨h1, fun g hg => ?_⟩
      rcases List.mem_append.mp hg with hg | hg
      · exact h2 g hg
      · exact hp.2 g (List.mem_cons_of_mem _ hg)) (show _ ∧ _ from ⟨hw, by
        intro f hf
        simp only [List.mem_singleton] at hf
        subst hf
        exact hm⟩) e he
    exact not_foreign hk h _
  · intro e he
    obtain ⟨rest, h⟩ := trace_all (P := fun w fs => (OnlyOurs w ∧ ∃ s x, fs = [.msg s (plain x)] ∧ ¬ Staying x) ∨ fs = [])
      (fun n w f w' fs rest hp hs => by
        rcases hp with ⟨ho, s, x, h, hx⟩ | h
        · cases h
          rw [List.append_nil]
          exact leaving_step hs ho hx
        · cases h) (.inl ⟨hw, signer, m, rfl, hm⟩) e he
    rcases h with ⟨h, _⟩ | h
    · exact not_foreign hk h _
    · cases h

/-! ## Examples -/

namespace Demo

/-- A chain on which only the code of the four contracts has been uploaded. -/
def ours : Chain := { chain with codes := fun k => if 1 ≤ k ∧ k ≤ 4 then chain.codes k else none }

theorem ours_codes (k : Nat) : ours.codes k ≠ some .other := by
  simp only [ours]
  split
  · rename_i h
    obtain ⟨h1, h2⟩ := h
    interval_cases k <;> decide
  · nofun

theorem genesis_ours : OnlyOurs genesis := nofun

example := C80_closed ours_codes genesis_ours

/-- A route of two hops with a minimum, paid in tokens. -/
def twoHops : CosmosMsg :=
  .exec tA (.send rou 100 (.executeSwapOperations [⟨.token tA, .token tB⟩, ⟨.token tB, .token tC⟩] (some 1) none)) []

/-- Decides whether a frame runs foreign code. -/
def runsForeign (w : World) : Frame → Bool
  | .msg _ ⟨.exec t _ _, _⟩ => match chain.api.resolve t with
    | .ok a => match w.contracts a with
      | some ⟨_, .other⟩ => true
      | _ => false
    | _ => false
  | .msg _ ⟨.inst _ code _ _, _⟩ => chain.codes code = some .other
  | .msg _ _ => false
  | .reply a _ _ => match w.contracts a with
      | some ⟨_, .other⟩ => true
      | _ => false

theorem runsForeign_iff {w : World} {f : Frame} (h : RunsForeign chain w f) : runsForeign w f = true := by
  cases f with
  | reply a _ _ => obtain ⟨adm, h⟩ := h; simp only [runsForeign, h]
  | msg s sm =>
    obtain ⟨m, i⟩ := sm
    cases m with
    | exec => obtain ⟨a, adm, h1, h2⟩ := h; simp only [runsForeign, h1, h2]
    | inst => exact decide_eq_true h
    | _ => exact h.elim

theorem no_foreign {gas : Nat} {w : World} {fs : List Frame}
    (h : ((trace chain idle gas w fs).all fun e => !runsForeign e.1 e.2) = true) :
    ∀ e ∈ trace chain idle gas w fs, ¬ RunsForeign chain e.1 e.2 := by
  intro e he hf
  have := List.all_eq_true.mp h e he
  rw [runsForeign_iff hf] at this
  cases this

theorem twoHops_plain : ∀ e ∈ trace chain idle 20 deployed [.msg user (plain twoHops)], ¬ RunsForeign chain e.1 e.2 :=
  no_foreign (by decide +kernel)

example := C80_bounded chain idle 20 deployed user twoHops twoHops_plain
/-- The bound is reached. -/
example : msgSteps twoHops = 11 ∧ (trace chain idle 20 deployed [.msg user (plain twoHops)]).length = 11 := by decide +kernel
/-- So is the one for creating a pair. -/
example : msgSteps (createMsg tA tC) = 5 ∧ (trace chain idle 20 deployed [.msg user (plain (createMsg tA tC))]).length = 5 := by
  decide +kernel
/-- And the one for withdrawing. -/
example : msgSteps (.exec lpAB (.send pAB 100 .withdrawLiquidity) []) = 5 ∧
    (trace chain idle 20 deployed [.msg user (plain (.exec lpAB (.send pAB 100 .withdrawLiquidity) []))]).length = 5 := by
  decide +kernel
/-- And the one for depositing. -/
example : msgSteps (provideMsg pAB tA tB) = 4 ∧
    (trace chain idle 20 (worldOf (runs (setup.take 11) genesis)) [.msg user (plain (provideMsg pAB tA tB))]).length = 4 := by
  decide +kernel

theorem twoHops_ok : runTx chain idle 20 deployed user twoHops = .ok (worldOf (runTx chain idle 20 deployed user twoHops)) :=
  worldOf_eq (by decide +kernel)

example : ∀ gas', 11 ≤ gas' → runTx chain idle gas' deployed user twoHops = .ok (worldOf (runTx chain idle 20 deployed user twoHops)) :=
  fun _ h => C80_gas (fun _ _ => rfl) twoHops_ok twoHops_plain h

/-- A foreign contract that calls itself. -/
def looping : Adv := { idle with act := fun _ a => .ok [plain (.exec a (.raw []) [])] }
def foreignWorld : World := { genesis with contracts := fun a => if a = tA then some ⟨none, .other⟩ else none }

/-- Foreign code does loop, until the gas is used up. -/
example (gas : Nat) (S : Addr) : (trace chain looping gas foreignWorld [.msg S (plain (.exec tA (.raw []) []))]).length = gas := by
  induction gas generalizing S with
  | zero => rfl
  | succ n ih =>
    have : step chain looping n foreignWorld (.msg S (plain (.exec tA (.raw []) []))) =
        .ok (foreignWorld, [.msg tA (plain (.exec tA (.raw []) []))]) := rfl
    rw [trace_cons this]
    simpa using ih tA

end Demo
end Halo
