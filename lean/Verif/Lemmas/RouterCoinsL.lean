import Verif.Lemmas.LockedL
import Verif.Lemmas.TraceL
/-! # Native coins in the router (helper lemmas for C61) -/

namespace Halo
open _root_.Halo.Spec

/-- What a router sends: messages without coins, and its own kind of swap request. -/
def HopOut (cm : CosmosMsg) : Prop :=
  ∃ p m funds, cm = .exec p m funds ∧ (funds = [] ∨ ∃ bp ms dst, m = .swapDirect bp ms dst)

theorem Router.execute_hopOut {api : Api} {q : Querier} {me sender : Addr} {s s' : Router.State} {m : ExecMsg} {r : Response}
    (h : Router.execute api q me s sender m = .ok (s', r)) : ∀ sm ∈ r.messages, ∃ cm, sm = plain cm ∧ HopOut cm := by
  have hops : ∀ (dst : Addr) (ops : List SwapOp), ∀ cm ∈ hopMsgs me dst ops, HopOut cm := by
    intro dst ops
    induction ops with
    | nil => intro cm hc; cases hc
    | cons o t ih =>
      intro cm hc
      cases t with
      | nil => simp only [hopMsgs, List.mem_singleton] at hc; subst hc; exact ⟨_, _, _, rfl, .inl rfl⟩
      | cons o' t =>
        rcases List.mem_cons.mp hc with rfl | hc
        · exact ⟨_, _, _, rfl, .inl rfl⟩
        · exact ih cm hc
  have ops : ∀ {sender ops mn dst}, executeSwapOperations api q me s sender ops mn dst = .ok (s', r) →
      ∀ sm ∈ r.messages, ∃ cm, sm = plain cm ∧ HopOut cm := by
    intro sender ops mn dst h sm hs
    simp only [executeSwapOperations, bind_eq_ok] at h
    obtain ⟨_, _, _, _, h⟩ := h
    cases mn with
    | none =>
      simp only [pure_eq_ok, Prod.mk.injEq] at h
      obtain ⟨_, rfl⟩ := h
      simp only [List.mem_map] at hs
      obtain ⟨cm, hc, rfl⟩ := hs
      exact ⟨cm, rfl, hops _ _ cm hc⟩
    | some m =>
      simp only [bind_eq_ok, pure_eq_ok, Prod.mk.injEq] at h
      obtain ⟨_, _, _, rfl⟩ := h
      simp only [List.mem_map, List.mem_append, List.mem_singleton] at hs
      obtain ⟨cm, hc | rfl, rfl⟩ := hs
      · exact ⟨cm, rfl, hops _ _ cm hc⟩
      · exact ⟨_, rfl, _, _, _, rfl, .inl rfl⟩
  cases m with
  | receive S x hk =>
    simp only [Router.execute, receiveCw20, bind_eq_ok] at h
    obtain ⟨S', hS, h⟩ := h
    cases hk with
    | executeSwapOperations o mn dst =>
      simp only [bind_eq_ok] at h
      obtain ⟨_, _, h⟩ := h
      exact ops h
    | _ => cases h
  | executeSwapOperations o mn dst =>
    simp only [Router.execute, bind_eq_ok] at h
    obtain ⟨_, _, h⟩ := h
    exact ops h
  | executeSwapOperation op dst =>
    simp only [Router.execute, executeSwapOperation, bind_eq_ok, pure_eq_ok, Prod.mk.injEq] at h
    obtain ⟨_, _, _, _, _, _, info, _, x, _, _, rfl⟩ := h
    intro sm hs
    simp only [List.mem_singleton] at hs
    subst hs
    refine ⟨_, rfl, ?_⟩
    unfold assetIntoSwapMsg
    split
    · exact ⟨_, _, _, rfl, .inr ⟨_, _, _, rfl⟩⟩
    · exact ⟨_, _, _, rfl, .inl rfl⟩
  | assertMinimumReceive i prev mn rcv =>
    simp only [Router.execute, assertMinimumReceive, bind_eq_ok, pure_eq_ok, Prod.mk.injEq] at h
    obtain ⟨_, _, _, _, _, _, _, _, _, rfl⟩ := h
    intro sm hs
    cases hs
  | _ => cases h

/-- The router hands coins `d` to foreign code. -/
def HandsOut (c : Chain) (a : Addr) (d : Denom) (e : World × Frame) : Prop :=
  ∃ p me bp ms dst funds adm, e.2 = .msg a (plain (.exec p (.swapDirect bp ms dst) funds)) ∧ (∃ k ∈ funds, k.denom = d) ∧
    c.api.resolve p = .ok me ∧ e.1.contracts me = some ⟨adm, .other⟩

/-- The router is still there, with at least `x` coins. -/
structure RKeeps (a : Addr) (d : Denom) (x : Nat) (v : World) (fs : List Frame) : Prop where
  here : ∃ adm s, v.contracts a = some ⟨adm, .router s⟩
  le : x ≤ v.bal d a
  calm : ∀ f ∈ fs, f.actor = a → ∃ cm, f = .msg a (plain cm) ∧ HopOut cm

theorem RKeeps.step {c : Chain} {adv : Adv} {n : Nat} {w w' : World} {f : Frame} {fs rest : List Frame}
    {a : Addr} {d : Denom} {x : Nat} (hi : RKeeps a d x w (f :: rest)) (h : StepI c adv n w f w' fs) :
    HandsOut c a d (w, f) ∨ RKeeps a d x w' (fs ++ rest) ∨ ∃ adm, w'.contracts a = some ⟨adm, .other⟩ := by
  obtain ⟨adm, s, ha⟩ := hi.here
  have hf : f.actor = a → ∃ cm, f = .msg a (plain cm) ∧ HopOut cm := hi.calm f (by simp)
  by_cases hho : HandsOut c a d (w, f)
  · exact .inl hho
  right
  have htk : f.actor = a → ¬ Takes c (.native d) f := by
    intro e ht
    obtain ⟨cm, rfl, p, m, funds, rfl, rfl | ⟨bp, ms, dst, rfl⟩⟩ := hf e
    · rcases ht with ⟨_, hk, _⟩ | ⟨_, hk, _⟩
      · cases hk
      · cases hk
    · rcases ht with ⟨k, hk, hd⟩ | ⟨_, hk, _⟩
      · simp only [AssetInfo.native.injEq] at hd
        cases h with
        | token _ _ _ _ _ me _ _ _ _ _ _ _ _ _ hx => cases hx
        | pair _ _ _ _ _ me _ _ _ _ _ _ _ _ _ hx => cases hx
        | factory _ _ _ _ _ me _ _ _ _ _ _ _ _ _ hx => cases hx
        | router _ _ _ _ _ me _ _ _ _ _ _ _ _ _ hx => cases hx
        | other _ _ _ _ _ me _ adm' _ hme _ hc => exact hho ⟨_, me, _, _, _, _, adm', rfl, ⟨k, hk, hd.symm⟩, hme, hc⟩
      · cases hk
  have hle := le_trans hi.le (bal_calm h htk)
  have hhere : (∃ adm s, w'.contracts a = some ⟨adm, .router s⟩) ∨ ∃ adm, w'.contracts a = some ⟨adm, .other⟩ := by
    have keep : w'.contracts a = w.contracts a → (∃ adm s, w'.contracts a = some ⟨adm, .router s⟩) ∨
      ∃ adm, w'.contracts a = some ⟨adm, .other⟩ := fun e => .inl ⟨adm, s, by rw [e]; exact ha⟩
    cases h with
    | bank _ _ _ _ _ _ _ _ hmv => exact keep (by rw [(moveCoins_inv hmv).contracts])
    | other _ _ _ _ _ _ _ _ _ _ hmv => exact keep (by rw [(moveCoins_inv hmv).contracts])
    | replyOther => exact keep rfl
    | router _ _ _ _ _ me w1 admin s1 s' r _ hmv _ hc _ =>
      by_cases h1 : a = me
      · subst h1
        exact .inl ⟨_, _, setContract_self _ _ _⟩
      · exact keep ((setContract_ne _ _ h1).trans (congrFun (moveCoins_inv hmv).contracts a))
    | token _ _ _ _ _ me w1 admin s1 s' r _ hmv _ hc _ | pair _ _ _ _ _ me w1 admin s1 s' r _ hmv _ hc _
    | factory _ _ _ _ _ me w1 admin s1 s' r _ hmv _ hc _ =>
      have h1 : a ≠ me := by rintro rfl; rw [hc] at ha; cases ha
      exact keep ((setContract_ne _ _ h1).trans (congrFun (moveCoins_inv hmv).contracts a))
    | inst sender admin codeId m funds id kk adm2 w1 s1 fs1 hk' hadm hnew hmv hx =>
      have h1 : a ≠ c.addrOf w.next := by rintro rfl; rw [hnew] at ha; cases ha
      exact keep ((setContract_ne _ _ h1).trans (congrFun (moveCoins_inv hmv).contracts a))
    | migrate sender _ _ _ kk me s1 _ _ hc =>
      by_cases h1 : a = me
      · subst h1
        rw [hc] at ha; cases ha
        cases kk <;> first | exact .inr ⟨_, setContract_self _ _ _⟩ | exact .inl ⟨_, _, setContract_self _ _ _⟩
      · exact keep (setContract_ne _ _ h1)
    | admin _ _ _ _ _ me s1 _ hc _ =>
      by_cases h1 : a = me
      · subst h1
        rw [hc] at ha; cases ha
        exact .inl ⟨_, _, setContract_self _ _ _⟩
      · exact keep (setContract_ne _ _ h1)
    | replyPair me _ _ admin s1 s' r hc hx | replyFactory me _ _ admin s1 s' r hc hx =>
      have h1 : a ≠ me := by rintro rfl; rw [hc] at ha; cases ha
      exact keep (setContract_ne _ _ h1)
  rcases hhere with hhere | hg
  swap
  · exact .inr hg
  refine .inl ⟨hhere, hle, ?_⟩
  intro g hg he
  rcases List.mem_append.mp hg with hg | hg
  swap
  · exact hi.calm g (by simp [hg]) he
  have rep : ∀ {sender : Addr} {id : Option Nat} {cr : Option Addr} {m : CosmosMsg}, f = .msg sender ⟨m, id⟩ →
      g ∈ replyFrame sender id cr → ∃ cm, g = .msg a (plain cm) ∧ HopOut cm := by
    rintro sender id cr m rfl hgr
    obtain ⟨j, rfl, rfl⟩ := mem_replyFrame hgr
    obtain ⟨_, hc, _⟩ := hf he
    cases hc
  cases h with
  | bank sender _ _ id => exact rep rfl hg
  | migrate sender _ _ id | admin sender _ _ id => exact rep rfl hg
  | token sender _ _ _ id me _ _ _ _ r _ _ _ hc hx | pair sender _ _ _ id me _ _ _ _ r _ _ _ hc hx
  | factory sender _ _ _ id me _ _ _ _ r _ _ _ hc hx =>
    rcases List.mem_append.mp hg with hg | hg
    · obtain ⟨m, hm, rfl⟩ := mem_frames hg
      simp only [Frame.actor] at he
      subst he
      rw [ha] at hc; cases hc
    · exact rep rfl hg
  | router sender _ _ _ id me _ _ _ _ r _ _ _ hc hx =>
    rcases List.mem_append.mp hg with hg | hg
    · obtain ⟨m, hm, rfl⟩ := mem_frames hg
      simp only [Frame.actor] at he
      subst he
      obtain ⟨cm, rfl, ho⟩ := Router.execute_hopOut hx m hm
      exact ⟨cm, rfl, ho⟩
    · exact rep rfl hg
  | other sender _ _ _ id me _ _ ms _ _ hc =>
    rcases List.mem_append.mp hg with hg | hg
    · simp only [List.mem_map] at hg
      obtain ⟨m', _, rfl⟩ := hg
      simp only [Frame.actor] at he
      subst he
      rw [ha] at hc; cases hc
    · exact rep rfl hg
  | inst sender admin codeId m' funds id kk adm2 w1 s1 fs1 hk' hadm hnew hmv hx =>
    rcases List.mem_append.mp hg with hg | hg
    · obtain ⟨_, rfl⟩ := callInstantiate_frames hx _ hg
      simp only [Frame.actor] at he
      rw [he, ha] at hnew; cases hnew
    · exact rep rfl hg
  | replyPair me _ _ _ _ _ r hc hx =>
    unfold Pair.reply at hx
    simp only [bind_eq_ok, okOr_eq_ok, canonicalize_eq_ok, pure_eq_ok, Prod.mk.injEq] at hx
    obtain ⟨lt, h1, b, h2, rfl, rfl⟩ := hx
    cases hg
  | replyFactory me _ _ _ _ _ r hc hx =>
    obtain ⟨_, _, _, _, _, _, _, _, _, _, rfl, _⟩ := Factory.reply_inv hx
    cases hg
  | replyOther me _ _ _ ms hc =>
    simp only [List.mem_map] at hg
    obtain ⟨m', _, rfl⟩ := hg
    simp only [Frame.actor] at he
    subst he
    rw [ha] at hc; cases hc

theorem RKeeps.run {c : Chain} {adv : Adv} {a : Addr} {d : Denom} {x : Nat} : ∀ {n n' : Nat} {w w' : World} {fs : List Frame},
    RKeeps a d x w fs → run c adv n w fs = .ok (n', w') → (∀ e ∈ trace c adv n w fs, ¬ HandsOut c a d e) →
    RKeeps a d x w' [] ∨ ∃ adm, w'.contracts a = some ⟨adm, .other⟩ := by
  intro n
  induction n with
  | zero =>
    intro n' w w' fs hi h _
    cases fs with
    | nil => cases h; exact .inl hi
    | cons => cases h
  | succ n ih =>
    intro n' w w' fs hi h hno
    cases fs with
    | nil => cases h; exact .inl hi
    | cons f fs =>
      obtain ⟨m, w1, fs1, he, hs, hr⟩ := run_cons_inv h
      cases he
      rw [trace_cons hs] at hno
      rcases hi.step (step_inv hs) with h1 | h1 | ⟨adm, h1⟩
      · exact absurd h1 (hno _ (.head _))
      · exact ih h1 hr fun e he => hno e (.tail _ he)
      · exact .inr (run_induct (P := fun v _ => ∃ adm, v.contracts a = some ⟨adm, .other⟩)
          (fun _ _ _ _ _ _ hp hs => by
            obtain ⟨_, hp⟩ := hp
            obtain ⟨adm', h, _⟩ := other_step hs hp
            exact ⟨adm', h⟩) ⟨adm, h1⟩ hr)

theorem RKeeps.hist {c : Chain} {a : Addr} {d : Denom} {w v : World} (hw : Reachable c w) {tr : List (World × Frame)}
    (h : Hist c w tr v) (hno : ∀ e ∈ tr, ¬ HandsOut c a d e) {x : Nat} (hi : RKeeps a d x w []) :
    RKeeps a d x v [] ∨ ∃ adm, v.contracts a = some ⟨adm, .other⟩ := by
  induction h with
  | refl => exact .inl hi
  | tx tr adv gas v v' signer m h hu hx ih =>
    obtain ⟨n, hr⟩ := runTx_inv hx
    rcases ih fun e he => hno e (List.mem_append_left _ he) with ih | ⟨adm, ih⟩
    · refine RKeeps.run (fs := [.msg signer (plain m)]) ⟨ih.here, ih.le, ?_⟩ hr fun e he => hno e (List.mem_append_right _ he)
      intro f hf he
      simp only [List.mem_singleton] at hf
      subst hf
      obtain ⟨adm, k, ha⟩ := ih.here
      obtain ⟨j, _, hj⟩ := (hw.later h.later).contractsAt _ _ ha
      exact absurd (hj.symm.trans he.symm) (hu.1 j)
    · exact .inr (run_induct (P := fun v _ => ∃ adm, v.contracts a = some ⟨adm, .other⟩)
          (fun _ _ _ _ _ _ hp hs => by
            obtain ⟨_, hp⟩ := hp
            obtain ⟨adm', h, _⟩ := other_step hs hp
            exact ⟨adm', h⟩) ⟨adm, ih⟩ hr)
  | block tr v b h ih =>
    rcases ih hno with ih | ih
    · exact .inl ⟨ih.here, ih.le, by simp⟩
    · exact .inr ih
  | env tr v bank' h hb ih =>
    rcases ih hno with ih | ih
    · refine .inl ⟨ih.here, ?_, by simp⟩
      obtain ⟨adm, k, ha⟩ := ih.here
      obtain ⟨j, _, rfl⟩ := (hw.later h.later).contractsAt _ _ ha
      exact le_trans ih.le (hb d j)
    · exact .inr ih

end Halo
