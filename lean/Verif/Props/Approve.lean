import Verif.Lemmas.ApproveL
import Verif.Props.Lost
/-! # C116: what an account can lose -/

namespace Halo
open _root_.Halo.Spec

/-- The coins a message carries. -/
def CosmosMsg.carries (d : Denom) : CosmosMsg → Nat
  | .bankSend _ coins => coinSum d coins
  | .exec _ _ funds => coinSum d funds
  | .inst _ _ _ funds => coinSum d funds
  | _ => 0

open ApproveL

/-- **C116.** A user who never lets anyone but the project's own contracts (pairs, routers, factories, tokens, whoever created them) spend a
token loses no more of it, over any history, than their own messages name: what they transfer, send or burn, and what they offer to pairs
as deposits. Whatever they allow beyond that is safe, however long it stands, whoever acts and whatever foreign code takes part. Only
replacing the code of the token or of an allowed contract undoes this. -/
theorem C116_project_may_be_trusted {c : Chain} (hc : c.Lawful) {w w' : World} (hw : Reachable c w) {tr : List (World × Frame)}
    (hh : Hist c w tr w') {t U : Addr} {adm : Option Addr} {s : TokenState} (ht : w.contracts t = some ⟨adm, .token s⟩)
    (h0 : ∀ sp, allowanceOf s U sp ≠ 0 → House w sp) (h1 : ∀ e ∈ tr, ∀ sp, GrantsTo c t U sp e.2 → House e.1 sp) :
    (∃ a adm, w'.contracts a = some ⟨adm, .other⟩ ∧
      (a = t ∨ allowanceOf s U a ≠ 0 ∨ ∃ e ∈ tr, GrantsTo c t U a e.2)) ∨
    held w (.token t) U ≤ held w' (.token t) U + (tr.map (cost c U t)).sum := by
  have hg : Gave (fun sp => allowanceOf s U sp ≠ 0 ∨ ∃ e ∈ tr, GrantsTo c t U sp e.2) t U w s :=
    ⟨⟨adm, ht⟩, fun sp h => ⟨.inl h, h0 sp h⟩⟩
  rcases hg.hist hc hw hh fun e he sp h => ⟨.inr ⟨e, he, h⟩, h1 e he sp h⟩ with hb | ⟨s', ⟨⟨adm', ht'⟩, _⟩, h⟩
  · exact .inl hb
  · refine .inr ?_
    rw [held_token ht, held_token ht']
    exact h

/-- **C116.** While they sign nothing, they lose nothing, however much the project's contracts may spend. -/
theorem C116_approvals_lie_safe {c : Chain} (hc : c.Lawful) {w w' : World} (hw : Reachable c w) {tr : List (World × Frame)}
    (hh : Hist c w tr w') {t U : Addr} {adm : Option Addr} {s : TokenState} (ht : w.contracts t = some ⟨adm, .token s⟩)
    (h0 : ∀ sp, allowanceOf s U sp ≠ 0 → House w sp) (hU : ∀ e ∈ tr, e.2.actor ≠ U) :
    (∃ a adm, w'.contracts a = some ⟨adm, .other⟩ ∧ (a = t ∨ allowanceOf s U a ≠ 0)) ∨
    held w (.token t) U ≤ held w' (.token t) U := by
  have hn : ∀ e ∈ tr, ∀ sp, ¬ GrantsTo c t U sp e.2 := by
    intro e he sp h
    have := hU e he
    obtain ⟨v, f⟩ := e
    unfold GrantsTo at h
    split at h
    · rename_i hf
      dsimp only at hf this
      rw [hf] at this
      exact this h.1
    · exact h
  rcases C116_project_may_be_trusted hc hw hh ht h0 (fun e he sp h => absurd h (hn e he sp)) with ⟨a, adm, ha, h⟩ | h
  · refine .inl ⟨a, adm, ha, ?_⟩
    rcases h with h | h | ⟨e, he, h⟩
    · exact .inl h
    · exact .inr h
    · exact absurd h (hn e he a)
  · right
    rw [List.sum_eq_zero (fun x hx => by
      obtain ⟨e, he, rfl⟩ := List.mem_map.mp hx
      exact cost_other (hU e he))] at h
    exact h

/-- **C116.** One transaction costs its signer no more than its one message names, whatever it sets off. -/
theorem C116_message_names_the_price {c : Chain} (hc : c.Lawful) {adv : Adv} {gas : Nat} {w w' : World} (hw : Reachable c w) {U t : Addr}
    (hU : c.IsUser U) {m : CosmosMsg} (hx : runTx c adv gas w U m = .ok w') {adm : Option Addr} {s : TokenState}
    (ht : w.contracts t = some ⟨adm, .token s⟩) (h0 : ∀ sp, allowanceOf s U sp ≠ 0 → House w sp)
    (h1 : ∀ sp, GrantsTo c t U sp (.msg U (plain m)) → House w sp) :
    (∃ a adm, w'.contracts a = some ⟨adm, .other⟩ ∧
      (a = t ∨ allowanceOf s U a ≠ 0 ∨ GrantsTo c t U a (.msg U (plain m)))) ∨
    held w (.token t) U ≤ held w' (.token t) U + cost c U t (w, .msg U (plain m)) := by
  have hh : Hist c w ([] ++ trace c adv gas w [.msg U (plain m)]) w' := .tx [] adv gas w w' U m .refl hU hx
  rw [List.nil_append] at hh
  have hone : ∀ e ∈ trace c adv gas w [.msg U (plain m)], e = (w, .msg U (plain m)) ∨ e.2.actor ≠ U := by
    intro e he
    cases gas with
    | zero => simp [trace] at he
    | succ n =>
      cases hs : step c adv n w (.msg U (plain m)) with
      | error x =>
        simp only [trace, hs, List.mem_singleton] at he
        exact .inl he
      | ok r =>
        obtain ⟨w1, fs1⟩ := r
        rw [trace_cons hs, List.append_nil] at he
        rcases List.mem_cons.mp he with h | h
        · exact .inl h
        · exact .inr (trace_contracts (hw.contractsAt.step (step_inv hs)) (plain_step (step_inv hs)) e h U hU)
  have hn : ∀ e ∈ trace c adv gas w [.msg U (plain m)], ∀ sp, GrantsTo c t U sp e.2 → e = (w, .msg U (plain m)) := by
    intro e he sp h
    refine (hone e he).resolve_right fun h2 => ?_
    obtain ⟨v, f⟩ := e
    unfold GrantsTo at h
    split at h
    · rename_i hf
      dsimp only at hf h2
      rw [hf] at h2
      exact h2 h.1
    · exact h
  rcases C116_project_may_be_trusted hc hw hh ht h0 (fun e he sp h => by
      have := hn e he sp h
      subst this
      exact h1 sp h) with ⟨a, adm, ha, h⟩ | h
  · refine .inl ⟨a, adm, ha, ?_⟩
    rcases h with h | h | ⟨e, he, h⟩
    · exact .inl h
    · exact .inr (.inl h)
    · have := hn e he a h
      subst this
      exact .inr (.inr h)
  · exact .inr (h.trans (Nat.add_le_add_left (cost_tx hw.contractsAt hU m) _))

/-- **C116.** And no more of any native coin than the message carries. -/
theorem C116_coins {c : Chain} {adv : Adv} {gas : Nat} {w w' : World} (hw : Reachable c w) {U : Addr}
    (hU : c.IsUser U) {m : CosmosMsg} (hx : runTx c adv gas w U m = .ok w') (d : Denom) : w.bal d U ≤ w'.bal d U + m.carries d := by
  obtain ⟨n', hr⟩ := runTx_inv hx
  obtain ⟨n, w1, fs1, rfl, hs, hr⟩ := run_cons_inv hr
  have hs' := step_inv hs
  rw [List.append_nil] at hr
  have rest : w1.bal d U ≤ w'.bal d U := by
    refine run_without hU.1 (T := fun v v' => v.bal d U ≤ v'.bal d U) (fun _ => le_refl _)
      (fun _ _ _ => le_trans) (fun _ _ _ _ _ _ ha hs => bal_step hs ha d) (hw.contractsAt.step hs') (fun g hg => ?_) hr
    rintro rfl
    obtain ⟨k, hk⟩ := Option.isSome_iff_exists.mp (plain_step hs' g hg)
    obtain ⟨j, _, hj⟩ := hw.contractsAt.step hs' _ _ hk
    exact hU.1 j hj.symm
  have key : ∀ {v v' : World} {dst : Addr} {coins : List Coin}, moveCoins v U dst coins = .ok v' → v.bal d U ≤ v'.bal d U + coinSum d coins := by
    intro v v' dst coins hm
    have hm := moveCoins_inv hm
    by_cases e : U = dst
    · rw [hm.same e]; omega
    · have := hm.src_bal e d; omega
  have first : w.bal d U ≤ w1.bal d U + m.carries d := by
    generalize hf : Frame.msg U (plain m) = f at hs'
    cases hs' with
    | bank _ _ _ _ _ _ _ _ hm | other _ _ _ _ _ _ _ _ _ _ hm _ =>
      cases hf
      exact key hm
    | token _ _ _ _ _ _ _ _ _ _ _ _ hm | pair _ _ _ _ _ _ _ _ _ _ _ _ hm | factory _ _ _ _ _ _ _ _ _ _ _ _ hm
    | router _ _ _ _ _ _ _ _ _ _ _ _ hm =>
      cases hf
      have := key hm
      exact this
    | inst _ _ _ _ _ _ _ _ _ _ _ _ _ _ hm =>
      cases hf
      have := key hm
      exact this
    | migrate | admin =>
      cases hf
      exact Nat.le_add_right _ _
    | replyPair | replyFactory | replyOther => cases hf
  omega

/-- **C116.** What a deposit costs: for a pair of two different assets, of each no more than the deposit names for it. -/
theorem C116_deposit_price {c : Chain} {w : World} {k : PairSite} (hk : k.Sound c w) {U t : Addr} {target : Str} {assets : Asset × Asset}
    {tol : Option Nat} {rc : Option Str} {funds : List Coin} (hr : c.api.resolve target = .ok k.a) :
    cost c U t (w, .msg U (plain (.exec target (.provideLiquidity assets tol rc) funds))) =
      if k.i0 = .token t ∨ k.i1 = .token t then PairSite.named (.token t) assets else 0 := by
  obtain ⟨adm, hp⟩ := hk.live
  have e : cost c U t (w, .msg U (plain (.exec target (.provideLiquidity assets tol rc) funds))) = pledged c t k.s assets := by
    simp [cost, handedOver, putForward, plain, hr, spends, hp]
  rw [e]
  unfold pledged
  simp only [hk.info0, hk.info1, Except.ok.injEq]
  by_cases h0 : k.i0 = .token t
  · have h1 : k.i1 ≠ .token t := fun h1 => hk.ne (h0.trans h1.symm)
    simp [h0, h1]
  · simp [h0]

/-- **C116.** What a swap, a withdrawal or a trade through the router costs: what is sent. -/
theorem C116_send_price {c : Chain} {w : World} {U t : Addr} {target dst : Str} {x : Nat} {h : HookMsg} {funds : List Coin}
    (hr : c.api.resolve target = .ok t) :
    cost c U t (w, .msg U (plain (.exec target (.send dst x h) funds))) = x := by
  simp [cost, handedOver, putForward, plain, hr, spends]

namespace Demo

def isHouse (v : World) (a : Addr) : Bool :=
  match v.contracts a with
  | some ⟨_, .other⟩ => false
  | some _ => true
  | none => false

theorem house_of {v : World} {a : Addr} (h : isHouse v a = true) : House v a := by
  unfold isHouse at h
  split at h
  · cases h
  · rename_i k hk e
    obtain ⟨adm, k⟩ := k
    exact ⟨adm, k, e, fun h => hk adm (by rw [h])⟩
  · cases h

private theorem mem_of_get {l : AMap (Addr × Addr) Allowance} {k : Addr × Addr} {a : Allowance} (h : l.get k = some a) : (k, a) ∈ l := by
  induction l with
  | nil => cases h
  | cons e t ih =>
    obtain ⟨k', a'⟩ := e
    unfold AMap.get at h
    split at h
    · rename_i e1
      cases h
      rw [e1]
      exact List.mem_cons_self
    · exact List.mem_cons_of_mem _ (ih h)

theorem gave_of {v : World} {s : TokenState} {U : Addr} (h : s.allowances.all (fun e => e.1.1 != U || isHouse v e.1.2) = true) :
    ∀ sp, allowanceOf s U sp ≠ 0 → House v sp := by
  intro sp h1
  unfold allowanceOf at h1
  split at h1
  · rename_i a e
    have := List.all_eq_true.mp h _ (mem_of_get e)
    simp only [bne_self_eq_false, Bool.false_or] at this
    exact house_of this
  · exact absurd rfl h1

private def grantOk (U : Addr) : World × Frame → Bool
  | (v, .msg u ⟨.exec _ (.increaseAllowance sp _ _) _, _⟩) => u != U || isHouse v sp
  | _ => true

private theorem grants_of {c : Chain} {t U : Addr} {tr : List (World × Frame)} (h : tr.all (grantOk U) = true) :
    ∀ e ∈ tr, ∀ sp, GrantsTo c t U sp e.2 → House e.1 sp := by
  intro e he sp hg
  have := List.all_eq_true.mp h e he
  obtain ⟨v, f⟩ := e
  unfold GrantsTo at hg
  split at hg
  · rename_i hf
    dsimp only at hf
    subst hf
    obtain ⟨rfl, rfl, _⟩ := hg
    simp only [grantOk, bne_self_eq_false, Bool.false_or] at this
    exact house_of this
  · exact hg.elim

/-- `user`, who lets the pair spend 20000 of each token, deposits, swaps, withdraws, and raises the allowance; they let the router and
the factory spend the token, too. -/
def dealings : List CosmosMsg :=
  [.exec pAB (.provideLiquidity (⟨.token tA, 500⟩, ⟨.token tB, 1000⟩) none none) [], .exec tA (.send pAB 1000 (.swap none none none)) [],
   .exec lpAB (.send pAB 300 .withdrawLiquidity) [], .exec tA (.increaseAllowance pAB 7 none) [],
   .exec tA (.increaseAllowance rou 3000 none) [], .exec tA (.increaseAllowance fac 3000 none) []]
def dealt : World := worldOf (runs dealings allowed)
private theorem dealt_run : runs dealings allowed = .ok dealt := worldOf_eq (by decide +kernel)

private theorem tA_allowed : ∃ adm s, allowed.contracts tA = some ⟨adm, .token s⟩ ∧ ∀ sp, allowanceOf s user sp ≠ 0 → House allowed sp := by
  have h : (match allowed.contracts tA with
    | some ⟨_, .token s⟩ => s.allowances.all (fun e => e.1.1 != user || isHouse allowed e.1.2)
    | _ => false) = true := by decide +kernel
  split at h
  · rename_i adm s e
    exact ⟨adm, s, e, gave_of h⟩
  · cases h

example : (∃ a adm, dealt.contracts a = some ⟨adm, .other⟩) ∨
    held allowed (.token tA) user ≤ held dealt (.token tA) user + ((traces dealings allowed).map (cost chain user tA)).sum := by
  obtain ⟨adm, s, h1, h2⟩ := tA_allowed
  exact (C116_project_may_be_trusted lawful allowed_reachable (hist_runs dealt_run) h1 h2 (grants_of (by decide +kernel))).imp
    (fun ⟨a, adm, h, _⟩ => ⟨a, adm, h⟩) fun h => h
/-- The bound is 1500, of which 232 came back. -/
example : ((traces dealings allowed).map (cost chain user tA)).sum = 1500 ∧
    held allowed (.token tA) user = held dealt (.token tA) user + 1268 := by decide +kernel

/-- Somebody else trades meanwhile. -/
def bustle : World := worldOf (runs [.exec tB (.transfer user2 400) []] allowed)
private theorem bustle_run : runs [.exec tB (.transfer user2 400) []] allowed = .ok bustle := worldOf_eq (by decide +kernel)
private theorem bustle_reachable : Reachable chain bustle := allowed_reachable.later (later_runs bustle_run)
def theirSwap : CosmosMsg := .exec tB (.send pAB 400 (.swap none none none)) []
def meanwhile : World := worldOf (runTx chain idle 20 bustle user2 theirSwap)
private theorem meanwhile_run : runTx chain idle 20 bustle user2 theirSwap = .ok meanwhile := worldOf_eq (by decide +kernel)

private theorem tA_bustle : ∃ adm s, bustle.contracts tA = some ⟨adm, .token s⟩ ∧ ∀ sp, allowanceOf s user sp ≠ 0 → House bustle sp := by
  have h : (match bustle.contracts tA with
    | some ⟨_, .token s⟩ => s.allowances.all (fun e => e.1.1 != user || isHouse bustle e.1.2)
    | _ => false) = true := by decide +kernel
  split at h
  · rename_i adm s e
    exact ⟨adm, s, e, gave_of h⟩
  · cases h

example : (∃ a adm, meanwhile.contracts a = some ⟨adm, .other⟩) ∨ held bustle (.token tA) user ≤ held meanwhile (.token tA) user := by
  obtain ⟨adm, s, h1, h2⟩ := tA_bustle
  have hn : ([] ++ trace chain idle 20 bustle [.msg user2 (plain theirSwap)]).all (fun e => e.2.actor != user) = true := by decide +kernel
  exact (C116_approvals_lie_safe lawful bustle_reachable
    (.tx [] idle 20 bustle meanwhile user2 theirSwap .refl isUser_user2 meanwhile_run) h1 h2
    fun e he => by simpa using List.all_eq_true.mp hn e he).imp (fun ⟨a, adm, h, _⟩ => ⟨a, adm, h⟩) fun h => h

/-- One deposit. -/
def myDeposit : CosmosMsg := .exec pAB (.provideLiquidity (⟨.token tA, 500⟩, ⟨.token tB, 1000⟩) none none) []
private theorem myDeposit_run : runTx chain idle 20 allowed user myDeposit = .ok (worldOf (runTx chain idle 20 allowed user myDeposit)) :=
  worldOf_eq (by decide +kernel)
example : (∃ a adm, (worldOf (runTx chain idle 20 allowed user myDeposit)).contracts a = some ⟨adm, .other⟩) ∨
    held allowed (.token tA) user ≤ held (worldOf (runTx chain idle 20 allowed user myDeposit)) (.token tA) user +
      cost chain user tA (allowed, .msg user (plain myDeposit)) := by
  obtain ⟨adm, s, h1, h2⟩ := tA_allowed
  exact (C116_message_names_the_price lawful allowed_reachable isUser_user myDeposit_run h1 h2 (fun _ hg => hg.elim)).imp
    (fun ⟨a, adm, h, _⟩ => ⟨a, adm, h⟩) fun h => h
example : cost chain user tA (allowed, .msg user (plain myDeposit)) = 500 :=
  (C116_deposit_price (k := siteAB) sound_allowed (by decide +kernel)).trans (by decide +kernel)
example : cost chain user tA (allowed, .msg user (plain (.exec tA (.send pAB 1000 (.swap none none none)) []))) = 1000 :=
  C116_send_price (by decide +kernel)

/-- And one payment in coins. -/
private theorem pay_run : runTx chain idle 20 deployed user (.bankSend user2 [⟨[117], 5⟩]) =
    .ok (worldOf (runTx chain idle 20 deployed user (.bankSend user2 [⟨[117], 5⟩]))) := worldOf_eq (by decide +kernel)
example := C116_coins deployed_reachable isUser_user pay_run [117]

end Demo
end Halo
