import Verif.Props.Live
import Verif.Props.DepositIff
import Verif.Props.CreateIff
import Verif.Props.Route
/-! # C112: foreign code has no say where it is not asked -/

namespace Halo
open _root_.Halo.Spec

namespace SayL

/-- Whatever `x` answers, `y` answers too. -/
structure Le {α : Type} (x y : R α) : Prop where
  of : ∀ v, x = .ok v → y = .ok v

theorem le_refl {α : Type} (x : R α) : Le x x := ⟨fun _ h => h⟩
theorem le_err {α : Type} (e : Err) (x : R α) : Le (.error e) x := ⟨fun _ h => nomatch h⟩

theorem le_bind {α β : Type} {x y : R α} {f g : α → R β} (h : Le x y) (hf : ∀ a, Le (f a) (g a)) : Le (x >>= f) (y >>= g) := by
  refine ⟨fun v hv => ?_⟩
  rw [bind_eq_ok] at hv ⊢
  obtain ⟨a, h1, h2⟩ := hv
  exact ⟨a, h.of a h1, (hf a).of v h2⟩

theorem le_bind' {α β : Type} {x y : R α} {f : α → R β} (h : Le x y) : Le (x >>= f) (y >>= f) := le_bind h fun _ => le_refl _
theorem le_bind_same {α β : Type} {x : R α} {f g : α → R β} (h : ∀ a, Le (f a) (g a)) : Le (x >>= f) (x >>= g) := le_bind (le_refl _) h

/-- The same of whole queriers. -/
structure QLe (q q' : Querier) : Prop where
  balance : ∀ a d, Le (q.balance a d) (q'.balance a d)
  tokenBalance : ∀ t a, Le (q.tokenBalance t a) (q'.tokenBalance t a)
  tokenInfo : ∀ t, Le (q.tokenInfo t) (q'.tokenInfo t)
  nativeDecimals : ∀ f d, Le (q.nativeDecimals f d) (q'.nativeDecimals f d)
  pairInfo : ∀ f as, Le (q.pairInfo f as) (q'.pairInfo f as)
  simulate : ∀ p a, Le (q.simulate p a) (q'.simulate p a)
  reverseSimulate : ∀ p a, Le (q.reverseSimulate p a) (q'.reverseSimulate p a)
  pairInfoFromPair : ∀ p, Le (q.pairInfoFromPair p) (q'.pairInfoFromPair p)

variable {q q' : Querier} (h : QLe q q')
include h

theorem pool_le (api : Api) (a : Addr) (i : AssetInfo) : Le (i.queryPool q api a) (i.queryPool q' api a) := by
  cases i with
  | token t => exact le_bind_same fun _ => h.tokenBalance _ _
  | native d => exact h.balance _ _

theorem decimals_le (a : Addr) (i : AssetInfo) : Le (i.queryDecimals q a) (i.queryDecimals q' a) := by
  cases i with
  | token t => exact le_bind' (h.tokenInfo _)
  | native d => exact h.nativeDecimals _ _

theorem pools_le (api : Api) (a : Addr) (p : PairInfoRaw) : Le (p.queryPools q api a) (p.queryPools q' api a) :=
  le_bind_same fun _ => le_bind_same fun _ => le_bind (pool_le h api a _) fun _ => le_bind' (pool_le h api a _)

theorem swap_le (api : Api) (me : Addr) (st : Pair.State) (funds : List Coin) (s : Str) (o : Asset) (bp ms : Option Nat) (dst : Option Addr) :
    Le (Pair.swap api q me st funds s o bp ms dst) (Pair.swap api q' me st funds s o bp ms dst) :=
  le_bind_same fun _ => le_bind' (pools_le h api me st)

theorem withdraw_le (api : Api) (me : Addr) (st : Pair.State) (s : Addr) (x : Nat) :
    Le (Pair.withdrawLiquidity api q me st s x) (Pair.withdrawLiquidity api q' me st s x) :=
  le_bind_same fun _ => le_bind (pools_le h api me st) fun _ => le_bind' (h.tokenInfo _)

theorem provide_le (api : Api) (me : Addr) (st : Pair.State) (s : Addr) (funds : List Coin) (as : Asset × Asset) (tol : Option Nat)
    (rcv : Option Str) : Le (Pair.provideLiquidity api q me st s funds as tol rcv) (Pair.provideLiquidity api q' me st s funds as tol rcv) := by
  unfold Pair.provideLiquidity
  exact le_bind_same fun _ => le_bind_same fun _ => le_bind (pools_le h api me st) fun _ => le_bind_same fun _ => le_bind_same fun _ =>
    le_bind_same fun _ => le_bind_same fun _ => le_bind_same fun _ => le_bind_same fun _ => le_bind' (h.tokenInfo _)

theorem pair_le (api : Api) (me : Addr) (st : Pair.State) (s : Addr) (funds : List Coin) (m : ExecMsg) :
    Le (Pair.execute api q me st s funds m) (Pair.execute api q' me st s funds m) := by
  cases m with
  | receive u x k =>
    cases k with
    | swap bp ms dst => exact le_bind (pools_le h api me st) fun _ => le_bind_same fun _ => le_bind_same fun _ => swap_le h ..
    | withdrawLiquidity => exact le_bind_same fun _ => le_bind_same fun _ => le_bind_same fun _ => withdraw_le h ..
    | executeSwapOperations => exact le_refl _
    | raw => exact le_refl _
  | provideLiquidity as tol rcv => exact provide_le h ..
  | _ => exact le_refl _

omit h in
theorem decimalsOr_le {x y : R Nat} (hx : Le x y) (e : Err) : Le (Factory.decimalsOr x e) (Factory.decimalsOr y e) := by
  refine ⟨fun v hv => ?_⟩
  cases x with
  | error _ => cases hv
  | ok a => rw [hx.of a rfl]; exact hv

theorem factory_le (api : Api) (me : Addr) (st : Factory.State) (s : Addr) (m : ExecMsg) :
    Le (Factory.execute api q me st s m) (Factory.execute api q' me st s m) := by
  cases m with
  | createPair as r =>
    exact le_bind_same fun _ => le_bind (decimalsOr_le (decimals_le h me _) _) fun _ => le_bind' (decimalsOr_le (decimals_le h me _) _)
  | addNativeTokenDecimals d n => exact le_bind_same fun _ => le_bind' (h.balance _ _)
  | _ => exact le_refl _

theorem reply_le (api : Api) (st : Factory.State) (a : Option Addr) : Le (Factory.reply api q st a) (Factory.reply api q' st a) :=
  le_bind_same fun _ => le_bind_same fun _ => le_bind' (h.pairInfoFromPair _)

theorem ops_le (api : Api) (me : Addr) (st : Router.State) (s : Addr) (ops : List SwapOp) (mn : Option Nat) (dst : Option Addr) :
    Le (Router.executeSwapOperations api q me st s ops mn dst) (Router.executeSwapOperations api q' me st s ops mn dst) := by
  unfold Router.executeSwapOperations
  refine le_bind_same fun _ => le_bind_same fun _ => ?_
  cases mn with
  | none => exact le_refl _
  | some m => exact le_bind' (pool_le h api _ _)

theorem router_le (api : Api) (me : Addr) (st : Router.State) (s : Addr) (m : ExecMsg) :
    Le (Router.execute api q me st s m) (Router.execute api q' me st s m) := by
  cases m with
  | receive u x k =>
    refine le_bind_same fun _ => ?_
    cases k with
    | executeSwapOperations ops mn dst => exact le_bind_same fun _ => ops_le h ..
    | _ => exact le_refl _
  | executeSwapOperations ops mn dst => exact le_bind_same fun _ => ops_le h ..
  | executeSwapOperation op dst =>
    refine le_bind_same fun _ => le_bind_same fun _ => le_bind_same fun _ => le_bind (h.pairInfo _ _) fun _ => le_bind' ?_
    cases op.offer with
    | native d => exact h.balance _ _
    | token t => exact le_bind_same fun _ => h.tokenBalance _ _
  | assertMinimumReceive i p mn r => exact le_bind_same fun _ => le_bind' (pool_le h api _ _)
  | _ => exact le_refl _

theorem sim_le (api : Api) (st : Pair.State) (a : Asset) : Le (Pair.querySimulation api q st a) (Pair.querySimulation api q' st a) :=
  le_bind_same fun _ => le_bind' (pools_le h api _ _)

theorem rsim_le (api : Api) (st : Pair.State) (a : Asset) :
    Le (Pair.queryReverseSimulation api q st a) (Pair.queryReverseSimulation api q' st a) :=
  le_bind_same fun _ => le_bind' (pools_le h api _ _)

theorem base_le (c : Chain) (w : World) : QLe (baseQuerier c q w) (baseQuerier c q' w) where
  balance _ _ := le_refl _
  tokenBalance t a := le_bind_same fun k => by
    cases k with
    | other => exact le_bind' (h.tokenBalance _ _)
    | _ => exact le_refl _
  tokenInfo t := le_bind_same fun k => by
    cases k with
    | other => exact le_bind' (h.tokenInfo _)
    | _ => exact le_refl _
  nativeDecimals f d := le_bind_same fun k => by
    cases k with
    | other => exact le_bind' (h.nativeDecimals _ _)
    | _ => exact le_refl _
  pairInfo f as := le_bind_same fun k => by
    cases k with
    | other => exact le_bind' (h.pairInfo _ _)
    | _ => exact le_refl _
  simulate _ _ := le_refl _
  reverseSimulate _ _ := le_refl _
  pairInfoFromPair p := le_bind_same fun k => by
    cases k with
    | other => exact le_bind' (h.pairInfoFromPair _)
    | _ => exact le_refl _

theorem querier_le (c : Chain) (w : World) : QLe (querier c q w) (querier c q' w) :=
  { base_le h c w with
    simulate := fun p a => le_bind_same fun k => by
      cases k with
      | other => exact le_bind' (h.simulate _ _)
      | pair s => exact le_bind' (sim_le (base_le h c w) ..)
      | _ => exact le_refl _
    reverseSimulate := fun p a => le_bind_same fun k => by
      cases k with
      | other => exact le_bind' (h.reverseSimulate _ _)
      | pair s => exact le_bind' (rsim_le (base_le h c w) ..)
      | _ => exact le_refl _ }

omit h

variable {adv adv' : Adv} {n n' : Nat} (hq : QLe (adv.query n) (adv'.query n')) (ha : ∀ a, Le (adv.act n a) (adv'.act n' a))
include hq ha

theorem exec_le (c : Chain) (w : World) (me s : Addr) (funds : List Coin) (m : ExecMsg) :
    Le (callExecute c adv n w me s funds m) (callExecute c adv' n' w me s funds m) := by
  unfold callExecute
  refine le_bind_same fun _ => ?_
  rcases w.contracts me with _ | ⟨adm, k⟩
  · exact le_refl _
  · cases k with
    | token t => exact le_refl _
    | pair p => exact le_bind' (pair_le (querier_le hq c w) ..)
    | factory p => exact le_bind' (factory_le (querier_le hq c w) ..)
    | router p => exact le_bind' (router_le (querier_le hq c w) ..)
    | other => exact le_bind' (ha me)

omit hq in
theorem inst_le (c : Chain) (me s : Addr) (k : Kind) (m : InstMsg) :
    Le (callInstantiate c adv n me s k m) (callInstantiate c adv' n' me s k m) := by
  unfold callInstantiate
  refine le_bind_same fun _ => ?_
  cases k <;> cases m <;> first | exact le_refl _ | exact le_bind' (ha me)

theorem step_le (c : Chain) (w : World) (f : Frame) : Le (step c adv n w f) (step c adv' n' w f) := by
  rcases f with ⟨s, ⟨m, id⟩⟩ | ⟨me, id, cr⟩
  · cases m with
    | exec t m funds => exact le_bind_same fun _ => le_bind_same fun _ => le_bind_same fun _ => le_bind' (exec_le hq ha ..)
    | inst adm k m funds =>
      exact le_bind_same fun _ => le_bind_same fun _ => le_bind_same fun _ => le_bind_same fun _ => le_bind' (inst_le ha ..)
    | _ => exact le_refl _
  · unfold step
    dsimp only
    rcases w.contracts me with _ | ⟨adm, k⟩
    · exact le_refl _
    · cases k with
      | factory p => exact le_bind' (reply_le (querier_le hq c w) ..)
      | other => exact le_bind' (ha me)
      | _ => exact le_refl _

omit hq ha

/-- The same of the whole chain of foreign contracts. -/
structure ALe (adv adv' : Adv) : Prop where
  query : ∀ n, QLe (adv.query n) (adv'.query n)
  act : ∀ n a, Le (adv.act n a) (adv'.act n a)

theorem run_le {adv adv' : Adv} (h : ALe adv adv') (c : Chain) : ∀ (n : Nat) (w : World) (fs : List Frame),
    Le (run c adv n w fs) (run c adv' n w fs)
  | _, _, [] => by simp only [run]; exact le_refl _
  | 0, _, _ :: _ => le_err _ _
  | n + 1, w, f :: fs => le_bind (step_le (h.query n) (h.act n) c w f) fun _ => run_le h c n _ _

theorem tx_le {adv adv' : Adv} (h : ALe adv adv') (c : Chain) (n : Nat) (w : World) (u : Addr) (m : CosmosMsg) :
    Le (runTx c adv n w u m) (runTx c adv' n w u m) := le_bind' (run_le h c n w _)

end SayL

open SayL

/-- Foreign contracts that refuse every call and every query. -/
def mute : Adv where
  act _ _ := .error .unauthorized
  query _ :=
    { balance := fun _ _ => .error .unauthorized
      tokenBalance := fun _ _ => .error .unauthorized
      tokenInfo := fun _ => .error .unauthorized
      nativeDecimals := fun _ _ => .error .unauthorized
      pairInfo := fun _ _ => .error .unauthorized
      simulate := fun _ _ => .error .unauthorized
      reverseSimulate := fun _ _ => .error .unauthorized
      pairInfoFromPair := fun _ => .error .unauthorized }

namespace SayL

theorem mute_q (n : Nat) (q : Querier) : QLe (mute.query n) q :=
  ⟨fun _ _ => le_err _ _, fun _ _ => le_err _ _, fun _ => le_err _ _, fun _ _ => le_err _ _, fun _ _ => le_err _ _, fun _ _ => le_err _ _,
    fun _ _ => le_err _ _, fun _ => le_err _ _⟩

theorem mute_step {c : Chain} {n : Nat} {w : World} {f : Frame} {r : World × List Frame} (h : step c mute n w f = .ok r) (adv : Adv) (n' : Nat) :
    step c adv n' w f = .ok r := (step_le (mute_q n _) (fun _ => le_err _ _) c w f).of r h

theorem mute_run {c : Chain} (adv : Adv) : ∀ {n n1 : Nat} {w w' : World} {fs : List Frame}, run c mute n w fs = .ok (n1, w') →
    ∀ k, run c adv (n + k) w fs = .ok (n1 + k, w')
  | n, n1, w, w', [], h, k => by
    simp only [run_nil, Except.ok.injEq, Prod.mk.injEq] at h ⊢
    exact ⟨by rw [h.1], h.2⟩
  | 0, _, _, _, _ :: _, h, _ => nomatch h
  | n + 1, n1, w, w', f :: fs, h, k => by
    obtain ⟨m, v, gs, e, hs, hr⟩ := run_cons_inv h
    cases e
    have e : n + 1 + k = n + k + 1 := by omega
    rw [e]
    exact run_cons_of (mute_step hs adv _) (mute_run adv hr k)

theorem mute_same {c : Chain} {adv : Adv} : ∀ {n n1 n2 n3 : Nat} {w w' w'' : World} {fs : List Frame}, run c mute n w fs = .ok (n1, w') →
    run c adv n2 w fs = .ok (n3, w'') → w'' = w'
  | n, n1, n2, n3, w, w', w'', [], h, h' => by
    simp only [run_nil, Except.ok.injEq, Prod.mk.injEq] at h h'
    exact h'.2.symm.trans h.2
  | 0, _, _, _, _, _, _, _ :: _, h, _ => nomatch h
  | n + 1, n1, n2, n3, w, w', w'', f :: fs, h, h' => by
    obtain ⟨m, v, gs, e, hs, hr⟩ := run_cons_inv h
    cases e
    obtain ⟨m', v', gs', _, hs', hr'⟩ := run_cons_inv h'
    have := (mute_step hs adv m').symm.trans hs'
    cases this
    exact mute_same hr hr'

end SayL

/-- **C112.** A transaction that goes through although foreign contracts refuse everything goes through, with the same outcome, whatever
they do, and with any more gas. -/
theorem C112_settled {c : Chain} {w w' : World} {u : Addr} {m : CosmosMsg} {gas : Nat} (h : runTx c mute gas w u m = .ok w') (adv : Adv)
    {gas' : Nat} (hg : gas ≤ gas') : runTx c adv gas' w u m = .ok w' := by
  obtain ⟨n, h⟩ := runTx_inv h
  obtain ⟨k, rfl⟩ : ∃ k, gas' = gas + k := ⟨gas' - gas, by omega⟩
  have := mute_run adv h k
  simp only [runTx, bind_eq_ok, pure_eq_ok, Prod.exists]
  exact ⟨_, _, this, rfl⟩

/-- **C112.** And no other outcome is possible, with whatever gas. -/
theorem C112_one_outcome {c : Chain} {w w' w'' : World} {u : Addr} {m : CosmosMsg} {gas gas' : Nat} {adv : Adv}
    (h : runTx c mute gas w u m = .ok w') (h' : runTx c adv gas' w u m = .ok w'') : w'' = w' := by
  obtain ⟨n, h⟩ := runTx_inv h
  obtain ⟨n', h'⟩ := runTx_inv h'
  exact mute_same h h'

open Classical in
/-- As `adv`, but the foreign contracts outside `A` refuse every call and every query. -/
noncomputable def Adv.only (adv : Adv) (c : Chain) (A : Addr → Prop) : Adv where
  act n a := if A a then adv.act n a else .error .unauthorized
  query n :=
    { balance := fun _ _ => .error .unauthorized -- never used
      tokenBalance := fun t a => if ∃ b, c.api.resolve t = .ok b ∧ A b then (adv.query n).tokenBalance t a else .error .unauthorized
      tokenInfo := fun t => if ∃ b, c.api.resolve t = .ok b ∧ A b then (adv.query n).tokenInfo t else .error .unauthorized
      nativeDecimals := fun t d => if ∃ b, c.api.resolve t = .ok b ∧ A b then (adv.query n).nativeDecimals t d else .error .unauthorized
      pairInfo := fun t as => if ∃ b, c.api.resolve t = .ok b ∧ A b then (adv.query n).pairInfo t as else .error .unauthorized
      simulate := fun t a => if ∃ b, c.api.resolve t = .ok b ∧ A b then (adv.query n).simulate t a else .error .unauthorized
      reverseSimulate := fun t a => if ∃ b, c.api.resolve t = .ok b ∧ A b then (adv.query n).reverseSimulate t a else .error .unauthorized
      pairInfoFromPair := fun t => if ∃ b, c.api.resolve t = .ok b ∧ A b then (adv.query n).pairInfoFromPair t else .error .unauthorized }

/-- `adv'` does and answers the same as `adv` where the foreign contracts in `A` are concerned. -/
structure Adv.Same (adv adv' : Adv) (c : Chain) (A : Addr → Prop) : Prop where
  act : ∀ n a, A a → adv'.act n a = adv.act n a
  tokenBalance : ∀ n t b a, c.api.resolve t = .ok b → A b → (adv'.query n).tokenBalance t a = (adv.query n).tokenBalance t a
  tokenInfo : ∀ n t b, c.api.resolve t = .ok b → A b → (adv'.query n).tokenInfo t = (adv.query n).tokenInfo t
  nativeDecimals : ∀ n t b d, c.api.resolve t = .ok b → A b → (adv'.query n).nativeDecimals t d = (adv.query n).nativeDecimals t d
  pairInfo : ∀ n t b as, c.api.resolve t = .ok b → A b → (adv'.query n).pairInfo t as = (adv.query n).pairInfo t as
  simulate : ∀ n t b a, c.api.resolve t = .ok b → A b → (adv'.query n).simulate t a = (adv.query n).simulate t a
  reverseSimulate : ∀ n t b a, c.api.resolve t = .ok b → A b → (adv'.query n).reverseSimulate t a = (adv.query n).reverseSimulate t a
  pairInfoFromPair : ∀ n t b, c.api.resolve t = .ok b → A b → (adv'.query n).pairInfoFromPair t = (adv.query n).pairInfoFromPair t

/-- **C112.** The outcome of a transaction depends only on the foreign contracts that it calls or asks: if it goes through although the
foreign contracts outside `A` refuse everything, it goes through with the same outcome whatever these do. -/
theorem C112_only_asked {c : Chain} {adv adv' : Adv} {A : Addr → Prop} (hs : adv.Same adv' c A) {w w' : World} {u : Addr} {m : CosmosMsg}
    {gas : Nat} (h : runTx c (adv.only c A) gas w u m = .ok w') : runTx c adv' gas w u m = .ok w' := by
  refine (tx_le ⟨fun n => ⟨?_, ?_, ?_, ?_, ?_, ?_, ?_, ?_⟩, ?_⟩ c gas w u m).of w' h
  · exact fun _ _ => le_err _ _
  all_goals (intros; simp only [Adv.only]; split)
  all_goals first | exact le_err _ _ | skip
  · next h => obtain ⟨b, h1, h2⟩ := h; rw [hs.tokenBalance _ _ _ _ h1 h2]; exact le_refl _
  · next h => obtain ⟨b, h1, h2⟩ := h; rw [hs.tokenInfo _ _ _ h1 h2]; exact le_refl _
  · next h => obtain ⟨b, h1, h2⟩ := h; rw [hs.nativeDecimals _ _ _ _ h1 h2]; exact le_refl _
  · next h => obtain ⟨b, h1, h2⟩ := h; rw [hs.pairInfo _ _ _ _ h1 h2]; exact le_refl _
  · next h => obtain ⟨b, h1, h2⟩ := h; rw [hs.simulate _ _ _ _ h1 h2]; exact le_refl _
  · next h => obtain ⟨b, h1, h2⟩ := h; rw [hs.reverseSimulate _ _ _ _ h1 h2]; exact le_refl _
  · next h => obtain ⟨b, h1, h2⟩ := h; rw [hs.pairInfoFromPair _ _ _ h1 h2]; exact le_refl _
  · next h => rw [hs.act _ _ h]; exact le_refl _

namespace SayL

/-- There is no foreign contract. -/
def Pure (w : World) : Prop := ∀ a adm, w.contracts a ≠ some ⟨adm, .other⟩

theorem Pure.look {w : World} (h : Pure w) {c : Chain} {s : Str} (hl : lookState c w s = .ok .other) : False := by
  simp only [lookState, bind_eq_ok, okOr_eq_ok, pure_eq_ok] at hl
  obtain ⟨a, _, ⟨adm, k⟩, h1, rfl⟩ := hl
  exact h a adm h1

theorem Pure.le {α : Type} {w : World} (h : Pure w) {c : Chain} {s : Str} {f g : CState → R α} (hf : ∀ k, k ≠ .other → Le (f k) (g k)) :
    Le (lookState c w s >>= f) (lookState c w s >>= g) := by
  refine ⟨fun v hv => ?_⟩
  rw [bind_eq_ok] at hv ⊢
  obtain ⟨k, h1, h2⟩ := hv
  have hk : k ≠ .other := fun e => h.look (e ▸ h1)
  exact ⟨k, h1, (hf k hk).of v h2⟩

theorem Pure.base {w : World} (h : Pure w) (c : Chain) (q q' : Querier) : QLe (baseQuerier c q w) (baseQuerier c q' w) where
  balance _ _ := le_refl _
  tokenBalance t a := h.le fun k hk => by cases k <;> first | exact le_refl _ | exact absurd rfl hk
  tokenInfo t := h.le fun k hk => by cases k <;> first | exact le_refl _ | exact absurd rfl hk
  nativeDecimals f d := h.le fun k hk => by cases k <;> first | exact le_refl _ | exact absurd rfl hk
  pairInfo f as := h.le fun k hk => by cases k <;> first | exact le_refl _ | exact absurd rfl hk
  simulate _ _ := le_refl _
  reverseSimulate _ _ := le_refl _
  pairInfoFromPair p := h.le fun k hk => by cases k <;> first | exact le_refl _ | exact absurd rfl hk

theorem Pure.asks {w : World} (h : Pure w) (c : Chain) (q q' : Querier) : QLe (querier c q w) (querier c q' w) :=
  { h.base c q q' with
    simulate := fun p a => h.le fun k hk => by
      cases k with
      | other => exact absurd rfl hk
      | pair s => exact le_bind' (sim_le (h.base c q q') ..)
      | _ => exact le_refl _
    reverseSimulate := fun p a => h.le fun k hk => by
      cases k with
      | other => exact absurd rfl hk
      | pair s => exact le_bind' (rsim_le (h.base c q q') ..)
      | _ => exact le_refl _ }

theorem Pure.exec {w : World} (h : Pure w) (c : Chain) (adv adv' : Adv) (n n' : Nat) (me s : Addr) (funds : List Coin) (m : ExecMsg) :
    Le (callExecute c adv n w me s funds m) (callExecute c adv' n' w me s funds m) := by
  unfold callExecute
  refine le_bind_same fun _ => ?_
  rcases hk : w.contracts me with _ | ⟨adm, k⟩
  · exact le_refl _
  · cases k with
    | token t => exact le_refl _
    | pair p => exact le_bind' (pair_le (h.asks c _ _) ..)
    | factory p => exact le_bind' (factory_le (h.asks c _ _) ..)
    | router p => exact le_bind' (router_le (h.asks c _ _) ..)
    | other => exact absurd hk (h me adm)

theorem pure_move {w w' : World} {s d : Addr} {funds : List Coin} (h : moveCoins w s d funds = .ok w') (hw : Pure w) : Pure w' := by
  intro a adm
  rw [(moveCoins_inv h).contracts]
  exact hw a adm

theorem Pure.step {w : World} (h : Pure w) (c : Chain) {adv : Adv} (adv' : Adv) {n : Nat} (n' : Nat) {f : Frame} {w1 : World}
    {fs : List Frame} (hs : step c adv n w f = .ok (w1, fs)) (h1 : Pure w1) : Halo.step c adv' n' w f = .ok (w1, fs) := by
  rcases f with ⟨s, ⟨m, id⟩⟩ | ⟨me, id, cr⟩
  · cases m with
    | exec t m funds =>
      simp only [Halo.step, bind_eq_ok, Prod.exists] at hs ⊢
      obtain ⟨me, a1, x, a2, v, a3, v1, gs, a4, a5⟩ := hs
      exact ⟨me, a1, x, a2, v, a3, v1, gs, ((pure_move a3 h).exec c adv adv' n n' ..).of _ a4, a5⟩
    | inst adm k m funds =>
      simp only [Halo.step, bind_eq_ok, Prod.exists] at hs ⊢
      obtain ⟨kd, a1, ad, a2, x, a3, v, a4, st, gs, a5, a6⟩ := hs
      refine ⟨kd, a1, ad, a2, x, a3, v, a4, st, gs, ?_, a6⟩
      have hst : st ≠ .other := by
        rintro rfl
        simp only [pure_eq_ok, Prod.mk.injEq] at a6
        refine h1 (c.addrOf w.next) ad ?_
        rw [← a6.1]
        simp [World.setContract]
      unfold callInstantiate at a5 ⊢
      simp only [bind_eq_ok] at a5 ⊢
      obtain ⟨y, b1, b2⟩ := a5
      refine ⟨y, b1, ?_⟩
      cases kd with
      | other =>
        exfalso
        simp only [bind_eq_ok, pure_eq_ok, Prod.mk.injEq] at b2
        obtain ⟨_, _, e, _⟩ := b2
        exact hst e.symm
      | _ => cases m <;> exact b2
    | _ => exact hs
  · unfold Halo.step at hs ⊢
    dsimp only at hs ⊢
    rcases hk : w.contracts me with _ | ⟨adm, k⟩
    · rw [hk] at hs; exact hs
    · rw [hk] at hs
      cases k with
      | factory p => exact (le_bind' (reply_le (h.asks c _ _) ..)).of _ hs
      | other => exact absurd hk (h me adm)
      | _ => exact hs

theorem pure_back {c : Chain} {adv : Adv} {n n' : Nat} {w w' : World} {fs : List Frame} (h : run c adv n w fs = .ok (n', w')) (h1 : Pure w') :
    Pure w := by
  intro a adm ha
  obtain ⟨adm', h2⟩ := run_induct (P := fun v _ => ∃ adm, v.contracts a = some ⟨adm, .other⟩)
    (fun _ _ _ _ _ _ ⟨_, hp⟩ hs => (other_step hs hp).imp fun _ h => h.1) ⟨adm, ha⟩ h
  exact h1 a adm' h2

theorem pure_run {c : Chain} {adv : Adv} : ∀ {n n1 : Nat} {w w' : World} {fs : List Frame}, run c adv n w fs = .ok (n1, w') → Pure w' →
    ∀ adv', run c adv' n w fs = .ok (n1, w')
  | n, n1, w, w', [], h, _, _ => by rw [run_nil] at h ⊢; exact h
  | 0, _, _, _, _ :: _, h, _, _ => nomatch h
  | n + 1, n1, w, w', f :: fs, h, hp, adv' => by
    have hw := pure_back h hp
    obtain ⟨m, v, gs, e, hs, hr⟩ := run_cons_inv h
    cases e
    exact run_cons_of (hw.step c adv' n hs (pure_back hr hp)) (pure_run hr hp adv')

end SayL

/-- **C112.** A transaction after which there is no foreign contract depends on none. -/
theorem C112_no_foreign {c : Chain} {adv : Adv} {gas : Nat} {w w' : World} {u : Addr} {m : CosmosMsg} (h : runTx c adv gas w u m = .ok w')
    (hp : ∀ a adm, w'.contracts a ≠ some ⟨adm, .other⟩) (adv' : Adv) {gas' : Nat} (hg : gas ≤ gas') : runTx c adv' gas' w u m = .ok w' := by
  obtain ⟨n, h⟩ := runTx_inv h
  refine C112_settled (gas := gas) ?_ adv' hg
  simp only [runTx, bind_eq_ok, pure_eq_ok, Prod.exists]
  exact ⟨_, _, pure_run h hp mute, rfl⟩

/-- **C112.** At a sound pair, however many foreign contracts there are elsewhere, a swap has one outcome, whatever they do and with
whatever gas. -/
theorem C112_swap {c : Chain} (hc : c.Lawful) {w w1 w2 : World} (hw : Reachable c w) {k : PairSite} (hk : k.Sound c w) (hf : Fits k w)
    {S : Addr} (hS : c.IsUser S) {t : Addr} {j : AssetInfo} (hd : k.Dir (.token t) j) {x : Nat} {bp ms : Option Nat} {dst : Option Str}
    {adv1 adv2 : Adv} {gas1 gas2 : Nat} (h1 : runTx c adv1 gas1 w S (.exec t (.send k.a x (.swap bp ms dst)) []) = .ok w1)
    (h2 : runTx c adv2 gas2 w S (.exec t (.send k.a x (.swap bp ms dst)) []) = .ok w2) : w1 = w2 := by
  obtain ⟨gas, w0, h0⟩ := (C56_swap_iff hc hw hk hf hS hd x bp ms dst mute (mute.query 0)).mpr
    ((C56_swap_iff hc hw hk hf hS hd x bp ms dst adv1 (mute.query 0)).mp ⟨_, _, h1⟩)
  rw [C112_one_outcome h0 h1, C112_one_outcome h0 h2]

/-- **C112.** So has a withdrawal. -/
theorem C112_withdraw {c : Chain} (hc : c.Lawful) {w w1 w2 : World} (hw : Reachable c w) {k : PairSite} (hk : k.Sound c w) (hf : Fits k w)
    {S : Addr} (hS : c.IsUser S) {x : Nat} {adv1 adv2 : Adv} {gas1 gas2 : Nat}
    (h1 : runTx c adv1 gas1 w S (.exec k.lt (.send k.a x .withdrawLiquidity) []) = .ok w1)
    (h2 : runTx c adv2 gas2 w S (.exec k.lt (.send k.a x .withdrawLiquidity) []) = .ok w2) : w1 = w2 := by
  obtain ⟨gas, w0, h0⟩ := (C55_withdraw_iff hc hw hk hf hS x mute).mpr ((C55_withdraw_iff hc hw hk hf hS x adv1).mp ⟨_, _, h1⟩)
  rw [C112_one_outcome h0 h1, C112_one_outcome h0 h2]

/-- **C112.** So has a deposit. -/
theorem C112_deposit {c : Chain} (hc : c.Lawful) {w w1 w2 : World} (hw : Reachable c w) {k : PairSite} (hk : k.Sound c w)
    {S : Addr} (hS : c.IsUser S) {assets : Asset × Asset} {tol : Option Nat} {receiver : Option Str} {funds : List Coin}
    {adv1 adv2 : Adv} {gas1 gas2 : Nat}
    (h1 : runTx c adv1 gas1 w S (.exec k.a (.provideLiquidity assets tol receiver) funds) = .ok w1)
    (h2 : runTx c adv2 gas2 w S (.exec k.a (.provideLiquidity assets tol receiver) funds) = .ok w2) : w1 = w2 := by
  obtain ⟨gas, w0, h0⟩ := (C67_deposit_iff hc hw hk assets tol receiver funds mute hS).mpr
    ((C67_deposit_iff hc hw hk assets tol receiver funds adv1 hS).mp ⟨_, _, h1⟩)
  rw [C112_one_outcome h0 h1, C112_one_outcome h0 h2]

/-- **C112.** So has a route over sound pairs. -/
theorem C112_route {c : Chain} (hc : c.Lawful) {w w1 w2 : World} (hw : Reachable c w) {S rou f t : Addr}
    {adm fadm : Option Addr} {s : Router.State} {fs : Factory.State} {ops : List SwapOp} {ks : List PairSite}
    {first last : SwapOp} {dst : Option Str} (h : OnRoute c w S rou f t adm fadm s fs ops ks first last dst)
    (hfit : ∀ k ∈ ks, Fits k w) {mn : Option Nat}
    (hbig : ∀ m d, mn = some m → last.ask = .native d → ∀ k ∈ ks, w.bal d (dst.getD S) + w.bal d k.a < 2 ^ 128)
    {x : Nat} {adv1 adv2 : Adv} {gas1 gas2 : Nat}
    (h1 : runTx c adv1 gas1 w S (.exec t (.send rou x (.executeSwapOperations ops mn dst)) []) = .ok w1)
    (h2 : runTx c adv2 gas2 w S (.exec t (.send rou x (.executeSwapOperations ops mn dst)) []) = .ok w2) : w1 = w2 := by
  obtain ⟨gas, w0, h0⟩ := (C60_route_iff hc hw h hfit mn hbig x mute (mute.query 0)).mpr
    ((C60_route_iff hc hw h hfit mn hbig x adv1 (mute.query 0)).mp ⟨_, _, h1⟩)
  rw [C112_one_outcome h0 h1, C112_one_outcome h0 h2]

/-- **C112.** And so has the creation of a pair of assets that are not foreign contracts. -/
theorem C112_create {c : Chain} (hl : c.Lawful) {w w1 w2 : World} (hw : Reachable c w) {u a : Addr}
    {adm : Option Addr} {s : Factory.State} (ha : w.contracts a = some ⟨adm, .factory s⟩)
    (hpc : c.codes s.config.pairCodeId = some .pair) (htc : c.codes s.config.tokenCodeId = some .token)
    {as : AssetInfo × AssetInfo} (hf0 : as.1.NotForeign c w) (hf1 : as.2.NotForeign c w) {req : Requirements}
    (hr : req.inRange = true) {funds : List Coin} {adv1 adv2 : Adv} {gas1 gas2 : Nat}
    (h1 : runTx c adv1 gas1 w u (.exec a (.createPair as req) funds) = .ok w1)
    (h2 : runTx c adv2 gas2 w u (.exec a (.createPair as req) funds) = .ok w2) : w1 = w2 := by
  obtain ⟨gas, w0, h0⟩ := (C65_create_iff hl hw ha hpc htc hf0 hf1 hr funds mute).mpr
    ((C65_create_iff hl hw ha hpc htc hf0 hf1 hr funds adv1).mp ⟨_, _, h1⟩)
  rw [C112_one_outcome h0 h1, C112_one_outcome h0 h2]

namespace Demo

/-- A swap in a world with halo contracts only. -/
def sale : CosmosMsg := .exec tA (.send pAB 1000 (.swap none (some 100000000000000000) none)) []

private theorem sale_run : runTx chain mute 20 allowed user sale = .ok (worldOf (runTx chain mute 20 allowed user sale)) :=
  worldOf_eq (by decide +kernel)

example (adv : Adv) := C112_settled sale_run adv (gas' := 100) (by decide)
example := C112_one_outcome sale_run (adv := idle) (gas' := 7) (worldOf_eq (by decide +kernel))
example : worldOf (runTx chain idle 7 allowed user sale) = worldOf (runTx chain mute 20 allowed user sale) :=
  C112_swap lawful allowed_reachable sound_allowed ⟨(fun _ h => nomatch h), (fun _ h => nomatch h)⟩ isUser_user (t := tA) (j := .token tB)
    (.inl ⟨rfl, rfl⟩) (worldOf_eq (by decide +kernel)) sale_run


private theorem sold_reachable : Reachable chain (worldOf (runTx chain mute 20 allowed user sale)) :=
  .step _ _ allowed_reachable (.tx _ _ _ _ _ _ isUser_user sale_run)

/-- There are no foreign contracts in this world. -/
private theorem all_halo : ∀ a adm, (worldOf (runTx chain mute 20 allowed user sale)).contracts a ≠ some ⟨adm, .other⟩ := by
  intro a adm h
  obtain ⟨j, hj, rfl⟩ := sold_reachable.contractsAt _ _ h
  have : ∀ j < (worldOf (runTx chain mute 20 allowed user sale)).next,
      (match (worldOf (runTx chain mute 20 allowed user sale)).contracts (chain.addrOf j) with
        | some ⟨_, .other⟩ => false
        | _ => true) = true := by decide +kernel
  have := this j hj
  rw [h] at this
  cases this
example (adv : Adv) := C112_no_foreign sale_run all_halo adv (gas' := 30) (by decide)
example (adv : Adv) (hs : idle.Same adv chain (· = pBC)) := C112_only_asked hs (C112_settled sale_run (idle.only chain (· = pBC)) (Nat.le_refl _))

example := C112_withdraw lawful allowed_reachable sound_allowed ⟨(fun _ h => nomatch h), (fun _ h => nomatch h)⟩ isUser_user (x := 700)
  (worldOf_eq (r := runTx chain idle 6 allowed user (.exec siteAB.lt (.send siteAB.a 700 .withdrawLiquidity) [])) (by decide +kernel))
  (worldOf_eq (r := runTx chain mute 60 allowed user (.exec siteAB.lt (.send siteAB.a 700 .withdrawLiquidity) [])) (by decide +kernel))
example := C112_deposit lawful allowed_reachable sound_allowed isUser_user
  (worldOf_eq (r := runTx chain idle 6 allowed user
    (.exec siteAB.a (.provideLiquidity (⟨.token tA, 1000⟩, ⟨.token tB, 2001⟩) none none) [])) (by decide +kernel))
  (worldOf_eq (r := runTx chain mute 60 allowed user
    (.exec siteAB.a (.provideLiquidity (⟨.token tA, 1000⟩, ⟨.token tB, 2001⟩) none none) [])) (by decide +kernel))
example := C112_route lawful deployed_reachable viaB_route viaB_fits (mn := some 3060) (fun _ _ _ h => nomatch h) (x := 1000)
  (worldOf_eq (r := runTx chain idle 11 deployed user (.exec tA (.send rou 1000 (.executeSwapOperations viaB (some 3060) (some user2))) []))
    (by decide +kernel))
  (worldOf_eq (r := runTx chain mute 60 deployed user (.exec tA (.send rou 1000 (.executeSwapOperations viaB (some 3060) (some user2))) []))
    (by decide +kernel))

private theorem halo_asset {t : Addr} (h : ((tokenAt deployed t).map fun _ => true) = some true) :
    (AssetInfo.token t).NotForeign chain deployed := by
  obtain ⟨ad, st, h, _⟩ := exists_token h
  intro x k hx hk
  have : x = t := by
    have : chain.api.resolve t = .ok t := PairSite.resolve_of_validate (validate_any t)
    rw [hx] at this
    exact Except.ok.inj this
  subst this
  rw [h] at hk
  cases hk
  intro e
  cases e
example := C112_create lawful deployed_reachable (facState_eq (a := fac) (by decide +kernel)) (by decide +kernel) (by decide +kernel)
  (halo_asset (t := tA) (by decide +kernel)) (halo_asset (t := tC) (by decide +kernel)) (req := ⟨[], 0, 0⟩) rfl
  (worldOf_eq (r := runTx chain idle 20 deployed user2 (.exec fac (.createPair (.token tA, .token tC) ⟨[], 0, 0⟩) [])) (by decide +kernel))
  (worldOf_eq (r := runTx chain mute 60 deployed user2 (.exec fac (.createPair (.token tA, .token tC) ⟨[], 0, 0⟩) [])) (by decide +kernel))

end Demo
end Halo
