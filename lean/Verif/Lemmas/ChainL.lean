import Verif.Chain
import Verif.Lemmas.PairInv
/-! # The host: what a successful step means (helper lemmas) -/

namespace Halo

/-- The amount of denom `d` in a list of coins. -/
def coinSum (d : Denom) : List Coin → Nat
  | [] => 0
  | k :: t => (if k.denom = d then k.amount else 0) + coinSum d t

theorem bal_setBank (w : World) (d d' : Denom) (m : AMap Addr Nat) (a : Addr) :
    (w.setBank d m).bal d' a = if d' = d then m.getD0 a else w.bal d' a := by
  unfold World.bal World.setBank
  by_cases h : d' = d <;> simp [h]

/-- What moving one coin does. -/
theorem moveCoin_inv {w w' : World} {src dst : Addr} {k : Coin} (h : moveCoin w src dst k = .ok w') :
    w'.contracts = w.contracts ∧ w'.next = w.next ∧ w'.block = w.block ∧ k.amount ≠ 0 ∧
    k.amount ≤ w.bal k.denom src ∧
    (∀ d a, d ≠ k.denom → w'.bal d a = w.bal d a) ∧
    (∀ a, w'.bal k.denom a =
      (if a = dst then (if a = src then w.bal k.denom a - k.amount else w.bal k.denom a) + k.amount
       else if a = src then w.bal k.denom a - k.amount else w.bal k.denom a)) ∧
    (∀ d, (w'.bank d).total = (w.bank d).total) := by
  unfold moveCoin at h
  simp only [bind_eq_ok, require_eq_ok, pure_eq_ok] at h
  obtain ⟨_, h1, _, h2, rfl⟩ := h
  refine ⟨rfl, rfl, rfl, h1, h2, ?_, ?_, ?_⟩
  · intro d a hd
    rw [bal_setBank, if_neg hd]
  · intro a
    rw [bal_setBank, if_pos rfl]
    simp only [AMap.getD0_set]
    by_cases h3 : a = dst
    · subst h3
      simp only [↓reduceIte]
      by_cases h4 : a = src
      · subst h4; simp
      · simp [h4, World.bal]
    · by_cases h4 : a = src
      · subst h4; simp [h3]
      · simp [h3, h4, World.bal]
  · intro d
    unfold World.setBank
    simp only
    by_cases hd : d = k.denom
    · subst hd
      rw [if_pos rfl]
      have e1 := AMap.total_set ((w.bank k.denom).set src (w.bal k.denom src - k.amount)) dst
        (((w.bank k.denom).set src (w.bal k.denom src - k.amount)).getD0 dst + k.amount)
      have e2 := AMap.total_set (w.bank k.denom) src (w.bal k.denom src - k.amount)
      have e3 : (w.bank k.denom).getD0 src = w.bal k.denom src := rfl
      omega
    · rw [if_neg hd]

/-- What moving coins does, in one record. -/
structure Moved (w w' : World) (src dst : Addr) (coins : List Coin) : Prop where
  contracts : w'.contracts = w.contracts
  next : w'.next = w.next
  block : w'.block = w.block
  same : src = dst → ∀ d a, w'.bal d a = w.bal d a
  src_bal : src ≠ dst → ∀ d, w'.bal d src + coinSum d coins = w.bal d src
  dst_bal : src ≠ dst → ∀ d, w'.bal d dst = w.bal d dst + coinSum d coins
  others : ∀ d a, a ≠ src → a ≠ dst → w'.bal d a = w.bal d a
  total : ∀ d, (w'.bank d).total = (w.bank d).total
  le_src : ∀ k ∈ coins, src ≠ dst → k.amount ≤ w.bal k.denom src

theorem Moved.refl (w : World) (src dst : Addr) : Moved w w src dst [] :=
  ⟨rfl, rfl, rfl, fun _ _ _ => rfl, fun _ _ => by simp [coinSum], fun _ _ => by simp [coinSum],
    fun _ _ _ _ => rfl, fun _ => rfl, by simp⟩

theorem moveCoinsLoop_inv {src dst : Addr} {coins : List Coin} :
    ∀ {w w' : World}, moveCoinsLoop src dst coins w = .ok w' → Moved w w' src dst coins := by
  induction coins with
  | nil =>
    intro w w' h
    cases h
    exact .refl w src dst
  | cons k t ih =>
    intro w w' h
    simp only [moveCoinsLoop, bind_eq_ok] at h
    obtain ⟨w1, h1, h2⟩ := h
    obtain ⟨c1, c2, c3, c4, c5, c6, c7, c8⟩ := moveCoin_inv h1
    have m := ih h2
    refine ⟨m.contracts.trans c1, m.next.trans c2, m.block.trans c3, ?_, ?_, ?_, ?_, ?_, ?_⟩
    · rintro rfl d a
      rw [m.same rfl]
      by_cases hd : d = k.denom
      · subst hd
        rw [c7]
        by_cases ha : a = src
        · subst ha; simp; omega
        · simp [ha]
      · exact c6 d a hd
    · intro hne d
      have := m.src_bal hne d
      by_cases hd : d = k.denom
      · subst hd
        rw [c7 src, if_neg hne, if_pos rfl] at this
        simp only [coinSum, ↓reduceIte]; omega
      · rw [c6 d src hd] at this
        simp only [coinSum, Ne.symm hd, ↓reduceIte]; omega
    · intro hne d
      rw [m.dst_bal hne d]
      by_cases hd : d = k.denom
      · subst hd
        rw [c7 dst, if_pos rfl, if_neg (Ne.symm hne)]
        simp only [coinSum, ↓reduceIte]; omega
      · rw [c6 d dst hd]
        simp only [coinSum, Ne.symm hd, ↓reduceIte]; omega
    · intro d a h3 h4
      rw [m.others d a h3 h4]
      by_cases hd : d = k.denom
      · subst hd; rw [c7, if_neg h4, if_neg h3]
      · exact c6 d a hd
    · intro d; rw [m.total, c8]
    · intro k' hk' hne
      rcases List.mem_cons.mp hk' with rfl | hk'
      · exact c5
      · refine (m.le_src k' hk' hne).trans ?_
        by_cases hd : k'.denom = k.denom
        · rw [hd, c7 src, if_neg hne, if_pos rfl]; omega
        · rw [c6 _ _ hd]

theorem moveCoins_inv {w w' : World} {src dst : Addr} {coins : List Coin}
    (h : moveCoins w src dst coins = .ok w') : Moved w w' src dst coins := by
  unfold moveCoins at h
  simp only [bind_eq_ok] at h
  obtain ⟨_, _, h⟩ := h
  exact moveCoinsLoop_inv h

@[simp] theorem moveCoins_nil {w w' : World} {src dst : Addr} :
    moveCoins w src dst [] = .ok w' ↔ w' = w := by
  unfold moveCoins
  simp only [List.map_nil, List.nodup_nil, bind_eq_ok, moveCoinsLoop]
  constructor
  · rintro ⟨_, _, h⟩; cases h; rfl
  · rintro rfl; exact ⟨(), rfl, rfl⟩

/-- Every way a frame can be executed. -/
inductive StepI (c : Chain) (adv : Adv) (n : Nat) (w : World) : Frame → World → List Frame → Prop where
  | bank (sender : Addr) (to_ : Str) (coins : List Coin) (id : Option Nat) (dst : Addr) (w' : World)
      (hne : coins ≠ []) (hdst : c.api.resolve to_ = .ok dst) (hm : moveCoins w sender dst coins = .ok w') :
      StepI c adv n w (.msg sender ⟨.bankSend to_ coins, id⟩) w' (replyFrame sender id none)
  | token (sender : Addr) (target : Str) (m : ExecMsg) (funds : List Coin) (id : Option Nat) (me : Addr)
      (w1 : World) (admin : Option Addr) (s s' : TokenState) (r : Response)
      (hme : c.api.resolve target = .ok me) (hm : moveCoins w sender me funds = .ok w1)
      (hr : m.inRange = true) (hc : w.contracts me = some ⟨admin, .token s⟩)
      (hx : Token.execute c.api w.block s sender m = .ok (s', r)) :
      StepI c adv n w (.msg sender ⟨.exec target m funds, id⟩) (w1.setState me admin (.token s'))
        (frames me r ++ replyFrame sender id none)
  | pair (sender : Addr) (target : Str) (m : ExecMsg) (funds : List Coin) (id : Option Nat) (me : Addr)
      (w1 : World) (admin : Option Addr) (s s' : Pair.State) (r : Response)
      (hme : c.api.resolve target = .ok me) (hm : moveCoins w sender me funds = .ok w1)
      (hr : m.inRange = true) (hc : w.contracts me = some ⟨admin, .pair s⟩)
      (hx : Pair.execute c.api (querier c (adv.query n) w1) me s sender funds m = .ok (s', r)) :
      StepI c adv n w (.msg sender ⟨.exec target m funds, id⟩) (w1.setState me admin (.pair s'))
        (frames me r ++ replyFrame sender id none)
  | factory (sender : Addr) (target : Str) (m : ExecMsg) (funds : List Coin) (id : Option Nat) (me : Addr)
      (w1 : World) (admin : Option Addr) (s s' : Factory.State) (r : Response)
      (hme : c.api.resolve target = .ok me) (hm : moveCoins w sender me funds = .ok w1)
      (hr : m.inRange = true) (hc : w.contracts me = some ⟨admin, .factory s⟩)
      (hx : Factory.execute c.api (querier c (adv.query n) w1) me s sender m = .ok (s', r)) :
      StepI c adv n w (.msg sender ⟨.exec target m funds, id⟩) (w1.setState me admin (.factory s'))
        (frames me r ++ replyFrame sender id none)
  | router (sender : Addr) (target : Str) (m : ExecMsg) (funds : List Coin) (id : Option Nat) (me : Addr)
      (w1 : World) (admin : Option Addr) (s s' : Router.State) (r : Response)
      (hme : c.api.resolve target = .ok me) (hm : moveCoins w sender me funds = .ok w1)
      (hr : m.inRange = true) (hc : w.contracts me = some ⟨admin, .router s⟩)
      (hx : Router.execute c.api (querier c (adv.query n) w1) me s sender m = .ok (s', r)) :
      StepI c adv n w (.msg sender ⟨.exec target m funds, id⟩) (w1.setState me admin (.router s'))
        (frames me r ++ replyFrame sender id none)
  | other (sender : Addr) (target : Str) (m : ExecMsg) (funds : List Coin) (id : Option Nat) (me : Addr)
      (w1 : World) (admin : Option Addr) (ms : List SubMsg)
      (hme : c.api.resolve target = .ok me) (hm : moveCoins w sender me funds = .ok w1)
      (hc : w.contracts me = some ⟨admin, .other⟩) :
      StepI c adv n w (.msg sender ⟨.exec target m funds, id⟩) w1
        (ms.map (Frame.msg me) ++ replyFrame sender id none)
  | inst (sender : Addr) (admin : Option Str) (codeId : Nat) (m : InstMsg) (funds : List Coin) (id : Option Nat)
      (k : Kind) (adm : Option Addr) (w1 : World) (s : CState) (fs : List Frame)
      (hk : c.codes codeId = some k) (hadm : resolveAdmin c.api admin = .ok adm)
      (hnew : w.contracts (c.addrOf w.next) = none)
      (hm : moveCoins { w with next := w.next + 1 } sender (c.addrOf w.next) funds = .ok w1)
      (hx : callInstantiate c adv n (c.addrOf w.next) sender k m = .ok (s, fs)) :
      StepI c adv n w (.msg sender ⟨.inst admin codeId m funds, id⟩) (w1.setContract (c.addrOf w.next) ⟨adm, s⟩)
        (fs ++ replyFrame sender id (some (c.addrOf w.next)))
  | migrate (sender : Addr) (target : Str) (codeId : Nat) (id : Option Nat) (k : Kind) (me : Addr) (s : CState)
      (hk : c.codes codeId = some k) (hme : c.api.resolve target = .ok me)
      (hc : w.contracts me = some ⟨some sender, s⟩) :
      StepI c adv n w (.msg sender ⟨.migrate target codeId, id⟩)
        (w.setState me (some sender) (migrateState k s)) (replyFrame sender id none)
  | admin (sender : Addr) (target : Str) (new : Option Str) (id : Option Nat) (adm : Option Addr) (me : Addr) (s : CState)
      (hme : c.api.resolve target = .ok me) (hc : w.contracts me = some ⟨some sender, s⟩)
      (hadm : resolveAdmin c.api new = .ok adm) :
      StepI c adv n w (.msg sender ⟨.updateAdmin target new, id⟩)
        (w.setState me adm s) (replyFrame sender id none)
  | replyPair (me : Addr) (id : Nat) (created : Option Addr) (admin : Option Addr) (s s' : Pair.State) (r : Response)
      (hc : w.contracts me = some ⟨admin, .pair s⟩) (hx : Pair.reply c.api s created = .ok (s', r)) :
      StepI c adv n w (.reply me id created) (w.setState me admin (.pair s')) (frames me r)
  | replyFactory (me : Addr) (id : Nat) (created : Option Addr) (admin : Option Addr) (s s' : Factory.State)
      (r : Response) (hc : w.contracts me = some ⟨admin, .factory s⟩)
      (hx : Factory.reply c.api (querier c (adv.query n) w) s created = .ok (s', r)) :
      StepI c adv n w (.reply me id created) (w.setState me admin (.factory s')) (frames me r)
  | replyOther (me : Addr) (id : Nat) (created : Option Addr) (admin : Option Addr) (ms : List SubMsg)
      (hc : w.contracts me = some ⟨admin, .other⟩) :
      StepI c adv n w (.reply me id created) w (ms.map (Frame.msg me))

theorem step_inv {c : Chain} {adv : Adv} {n : Nat} {w : World} {f : Frame} {w' : World} {fs : List Frame}
    (h : step c adv n w f = .ok (w', fs)) : StepI c adv n w f w' fs := by
  cases f with
  | msg sender sm =>
    obtain ⟨m, id⟩ := sm
    cases m with
    | bankSend dst coins =>
      simp only [step, bind_eq_ok, require_eq_ok, pure_eq_ok, Prod.mk.injEq] at h
      obtain ⟨_, h1, _, h2, _, h3, rfl, rfl⟩ := h
      exact .bank _ _ _ _ _ _ h1 h2 h3
    | exec target m funds =>
      simp only [step, bind_eq_ok, require_eq_ok, pure_eq_ok, Prod.mk.injEq, Prod.exists] at h
      obtain ⟨me, h1, _, h2, w1, h3, w2, fs2, h4, rfl, rfl⟩ := h
      have hc := (moveCoins_inv h3).contracts
      have hb := (moveCoins_inv h3).block
      unfold callExecute at h4
      simp only [bind_eq_ok, require_eq_ok] at h4
      obtain ⟨_, hr, h4⟩ := h4
      rw [hc] at h4
      split at h4
      · cases h4
      · rename_i admin s hc'
        simp only [bind_eq_ok, pure_eq_ok, Prod.exists, Prod.mk.injEq] at h4
        obtain ⟨s', r, hx, rfl, rfl⟩ := h4
        rw [hb] at hx
        exact .token _ _ _ _ _ _ _ _ _ _ _ h1 h3 hr hc' hx
      · rename_i admin s hc'
        simp only [bind_eq_ok, pure_eq_ok, Prod.exists, Prod.mk.injEq] at h4
        obtain ⟨s', r, hx, rfl, rfl⟩ := h4
        exact .pair _ _ _ _ _ _ _ _ _ _ _ h1 h3 hr hc' hx
      · rename_i admin s hc'
        simp only [bind_eq_ok, pure_eq_ok, Prod.exists, Prod.mk.injEq] at h4
        obtain ⟨s', r, hx, rfl, rfl⟩ := h4
        exact .factory _ _ _ _ _ _ _ _ _ _ _ h1 h3 hr hc' hx
      · rename_i admin s hc'
        simp only [bind_eq_ok, pure_eq_ok, Prod.exists, Prod.mk.injEq] at h4
        obtain ⟨s', r, hx, rfl, rfl⟩ := h4
        exact .router _ _ _ _ _ _ _ _ _ _ _ h1 h3 hr hc' hx
      · rename_i admin hc'
        simp only [bind_eq_ok, pure_eq_ok, Prod.mk.injEq] at h4
        obtain ⟨ms, _, rfl, rfl⟩ := h4
        exact .other _ _ _ _ _ _ _ _ _ h1 h3 hc'
    | inst admin codeId m funds =>
      simp only [step, bind_eq_ok, require_eq_ok, pure_eq_ok, Prod.mk.injEq, Prod.exists, okOr_eq_ok] at h
      obtain ⟨k, h1, adm, h2, _, h3, w1, h4, s, fs2, h5, rfl, rfl⟩ := h
      exact .inst _ _ _ _ _ _ _ _ _ _ _ h1 h2 (by simpa using h3) h4 h5
    | migrate target codeId =>
      simp only [step, bind_eq_ok, require_eq_ok, pure_eq_ok, Prod.mk.injEq, okOr_eq_ok] at h
      obtain ⟨k, h1, me, h2, ⟨adm, s⟩, h3, _, h4, rfl, rfl⟩ := h
      simp only at h4
      subst h4
      exact .migrate _ _ _ _ _ _ _ h1 h2 h3
    | updateAdmin target new =>
      simp only [step, bind_eq_ok, require_eq_ok, pure_eq_ok, Prod.mk.injEq, okOr_eq_ok] at h
      obtain ⟨me, h1, ⟨adm, s⟩, h2, _, h3, adm', h4, rfl, rfl⟩ := h
      simp only at h3
      subst h3
      exact .admin _ _ _ _ _ _ _ h1 h2 h4
  | reply me id created =>
    simp only [step] at h
    split at h
    · rename_i admin s hc
      simp only [bind_eq_ok, pure_eq_ok, Prod.exists, Prod.mk.injEq] at h
      obtain ⟨s', r, hx, rfl, rfl⟩ := h
      exact .replyPair _ _ _ _ _ _ _ hc hx
    · rename_i admin s hc
      simp only [bind_eq_ok, pure_eq_ok, Prod.exists, Prod.mk.injEq] at h
      obtain ⟨s', r, hx, rfl, rfl⟩ := h
      exact .replyFactory _ _ _ _ _ _ _ hc hx
    · rename_i admin hc
      simp only [bind_eq_ok, pure_eq_ok, Prod.mk.injEq] at h
      obtain ⟨ms, _, rfl, rfl⟩ := h
      exact .replyOther _ _ _ _ _ hc
    · cases h

end Halo
