import Verif.Spec.Replay
import Verif.Props.Cw20
/-! # The book of a token over time (C95) -/

namespace Halo
open _root_.Halo.Spec

/-- A frame that calls the contract at `t`. -/
def tokenCall (c : Chain) (t : Addr) : World × Frame → Option Entry
  | (w, .msg u ⟨.exec a m _, _⟩) => if c.api.resolve a = .ok t then some ⟨w.block, u, m⟩ else none
  | _ => none

/-- The calls of the contract at `t` among the executed frames. -/
def tokenCalls (c : Chain) (t : Addr) (tr : List (World × Frame)) : List Entry := tr.filterMap (tokenCall c t)

/-- Each of the calls was allowed by the book of its time, in which nobody has more than there is. -/
def Book.Allowed (valid : Addr → Prop) (strict : Prop) (b : Book) (l : List Entry) : Prop :=
  ∀ l1 e l2, l = l1 ++ e :: l2 →
    (b.replay l1).May valid (Past e.block) strict e.by_ e.msg ∧ ∀ a, (b.replay l1).bal a ≤ (b.replay l1).supply

namespace ReplayL

theorem replay_append (b : Book) (l l' : List Entry) : b.replay (l ++ l') = (b.replay l).replay l' := List.foldl_append ..

theorem replay_cons (b : Book) (e : Entry) (l : List Entry) : b.replay (e :: l) = (b.after e.by_ e.msg).replay l := rfl

theorem allowed_nil {valid : Addr → Prop} {strict : Prop} {b : Book} : Book.Allowed valid strict b [] := by
  intro l1 e l2 h
  simp at h

theorem allowed_cons {valid : Addr → Prop} {strict : Prop} {b : Book} {e : Entry} {l : List Entry} :
    Book.Allowed valid strict b (e :: l) ↔
      (b.May valid (Past e.block) strict e.by_ e.msg ∧ ∀ a, b.bal a ≤ b.supply) ∧ Book.Allowed valid strict (b.after e.by_ e.msg) l := by
  constructor
  · intro h
    exact ⟨h [] e l rfl, fun l1 e' l2 hl => h (e :: l1) e' l2 (by rw [hl]; rfl)⟩
  · rintro ⟨h1, h2⟩ l1 e' l2 hl
    cases l1 with
    | nil => cases hl; exact h1
    | cons a l1 => cases hl; exact h2 l1 e' l2 rfl

theorem allowed_append {valid : Addr → Prop} {strict : Prop} : ∀ {l l' : List Entry} {b : Book},
    Book.Allowed valid strict b l → Book.Allowed valid strict (b.replay l) l' → Book.Allowed valid strict b (l ++ l')
  | [], _, _, _, h => h
  | _ :: _, _, _, h1, h2 => allowed_cons.2 ⟨(allowed_cons.1 h1).1, allowed_append (allowed_cons.1 h1).2 h2⟩

/-- One step. -/
theorem entry_step {c : Chain} {adv : Adv} {n : Nat} {w w' : World} {f : Frame} {fs : List Frame} (h : StepI c adv n w f w' fs)
    {t : Addr} {adm : Option Addr} {s : TokenState} (ht : w.contracts t = some ⟨adm, .token s⟩) :
    (∃ adm', w'.contracts t = some ⟨adm', .other⟩) ∨
      ∃ adm' s', w'.contracts t = some ⟨adm', .token s'⟩ ∧ (s'.name = s.name ∧ s'.symbol = s.symbol ∧ s'.decimals = s.decimals) ∧
        ((tokenCall c t (w, f) = none ∧ s'.book = s.book) ∨ ∃ e, tokenCall c t (w, f) = some e ∧
          s.book.May c.api.Valid (Past e.block) (c.api.refusesPast = true) e.by_ e.msg ∧ s'.book = s.book.after e.by_ e.msg) := by
  have keep : tokenCall c t (w, f) = none → (∃ adm', w'.contracts t = some ⟨adm', .token s⟩) →
      (∃ adm', w'.contracts t = some ⟨adm', .other⟩) ∨
      ∃ adm' s', w'.contracts t = some ⟨adm', .token s'⟩ ∧ (s'.name = s.name ∧ s'.symbol = s.symbol ∧ s'.decimals = s.decimals) ∧
        ((tokenCall c t (w, f) = none ∧ s'.book = s.book) ∨ ∃ e, tokenCall c t (w, f) = some e ∧
          s.book.May c.api.Valid (Past e.block) (c.api.refusesPast = true) e.by_ e.msg ∧ s'.book = s.book.after e.by_ e.msg) :=
    fun h1 ⟨adm', h2⟩ => .inr ⟨adm', s, h2, ⟨rfl, rfl, rfl⟩, .inl ⟨h1, rfl⟩⟩
  have miss : ∀ {u : Addr} {a : Str} {m : ExecMsg} {fu : List Coin} {id : Option Nat} {me : Addr}, c.api.resolve a = .ok me → me ≠ t →
      tokenCall c t (w, .msg u ⟨.exec a m fu, id⟩) = none := by
    intro u a m fu id me hr hne
    simp only [tokenCall, hr, Except.ok.injEq, hne, ↓reduceIte]
  cases h with
  | bank _ _ _ _ _ _ _ _ hmv => exact keep rfl ⟨adm, by rw [(moveCoins_inv hmv).contracts]; exact ht⟩
  | other _ _ _ _ _ me _ _ _ hme hmv hc =>
    have h1 : me ≠ t := by rintro rfl; rw [ht] at hc; cases hc
    exact keep (miss hme h1) ⟨adm, by rw [(moveCoins_inv hmv).contracts]; exact ht⟩
  | replyOther => exact keep rfl ⟨adm, ht⟩
  | token sender target m funds id me w1 admin s1 s' r hme hmv hr hc hx =>
    by_cases h1 : t = me
    · subst h1
      rw [ht] at hc
      cases hc
      obtain ⟨g1, g2, g3, _⟩ := execute_book hx
      exact .inr ⟨adm, s', setContract_self _ _ _, g3, .inr ⟨⟨w.block, sender, m⟩, by simp [tokenCall, hme], g1, g2⟩⟩
    · exact keep (miss hme (Ne.symm h1)) ⟨adm, ((setContract_ne _ _ h1).trans (congrFun (moveCoins_inv hmv).contracts t)).trans ht⟩
  | pair _ _ _ _ _ me w1 admin s1 s' r hme hmv _ hc _ | factory _ _ _ _ _ me w1 admin s1 s' r hme hmv _ hc _
  | router _ _ _ _ _ me w1 admin s1 s' r hme hmv _ hc _ =>
    have h1 : t ≠ me := by rintro rfl; rw [ht] at hc; cases hc
    exact keep (miss hme (Ne.symm h1)) ⟨adm, ((setContract_ne _ _ h1).trans (congrFun (moveCoins_inv hmv).contracts t)).trans ht⟩
  | inst sender admin codeId m funds id kk adm2 w1 s1 fs1 hk hadm hnew hmv hx =>
    have h1 : t ≠ c.addrOf w.next := by rintro rfl; rw [ht] at hnew; cases hnew
    exact keep rfl ⟨adm, ((setContract_ne _ _ h1).trans (congrFun (moveCoins_inv hmv).contracts t)).trans ht⟩
  | migrate sender target codeId id k me s1 hk hres hc =>
    by_cases h1 : t = me
    · subst h1
      rw [ht] at hc
      cases hc
      have : migrateState k (.token s) = .other := by cases k <;> rfl
      exact .inl ⟨some sender, by simp [World.setState, this]⟩
    · exact keep rfl ⟨adm, (setContract_ne _ _ h1).trans ht⟩
  | admin sender target new id adm2 me s1 hres hc _ =>
    by_cases h1 : t = me
    · subst h1
      rw [ht] at hc
      cases hc
      exact keep rfl ⟨adm2, setContract_self _ _ _⟩
    · exact keep rfl ⟨adm, (setContract_ne _ _ h1).trans ht⟩
  | replyPair me _ _ _ _ _ _ hc | replyFactory me _ _ _ _ _ _ hc =>
    have h1 : t ≠ me := by rintro rfl; rw [ht] at hc; cases hc
    exact keep rfl ⟨adm, (setContract_ne _ _ h1).trans ht⟩

/-- The book at `t` went from `s` through the calls `l`, or `t` is foreign code by now. -/
def Went (c : Chain) (t : Addr) (s : TokenState) (l : List Entry) (w : World) : Prop :=
  (∃ adm, w.contracts t = some ⟨adm, .other⟩) ∨ ∃ adm s', w.contracts t = some ⟨adm, .token s'⟩ ∧
    (s'.name = s.name ∧ s'.symbol = s.symbol ∧ s'.decimals = s.decimals) ∧ s'.book = s.book.replay l ∧ Book.Allowed c.api.Valid (c.api.refusesPast = true) s.book l

theorem Went.run {c : Chain} {adv : Adv} {t : Addr} {s : TokenState} : ∀ {n n' : Nat} {w w' : World} {fs : List Frame} {l : List Entry},
    TokensOk w → Went c t s l w → run c adv n w fs = .ok (n', w') → Went c t s (l ++ tokenCalls c t (trace c adv n w fs)) w' := by
  intro n
  induction n with
  | zero =>
    intro n' w w' fs l _ hp h
    cases fs with
    | nil => cases h; simpa [trace, tokenCalls] using hp
    | cons => cases h
  | succ n ih =>
    intro n' w w' fs l hok hp h
    cases fs with
    | nil => cases h; simpa [trace, tokenCalls] using hp
    | cons f fs =>
      obtain ⟨m, w1, fs1, he, hs, hr⟩ := run_cons_inv h
      cases he
      have hs' := step_inv hs
      rw [trace_cons hs, tokenCalls, List.filterMap_cons]
      have key : Went c t s (l ++ (tokenCall c t (w, f)).toList) w1 := by
        rcases hp with ⟨adm, ho⟩ | ⟨adm, s1, h1, h2, h3, h4⟩
        · exact .inl ((other_step hs' ho).imp fun _ h => h.1)
        · rcases entry_step hs' h1 with ho | ⟨adm', s', g1, g2, g3⟩
          · exact .inl ho
          · refine .inr ⟨adm', s', g1, ⟨g2.1.trans h2.1, g2.2.1.trans h2.2.1, g2.2.2.trans h2.2.2⟩, ?_⟩
            rcases g3 with ⟨g3, g4⟩ | ⟨e, g3, g4, g5⟩
            · rw [g3, Option.toList_none, List.append_nil, g4]
              exact ⟨h3, h4⟩
            · rw [g3, Option.toList_some]
              refine ⟨by rw [replay_append, ← h3, g5]; rfl, allowed_append h4 (allowed_cons.2 ⟨⟨by rw [← h3]; exact g4, ?_⟩, allowed_nil⟩)⟩
              rw [← h3]
              exact fun a => (hok _ _ _ h1).le_supply a
      have := ih (hok.step hs') key hr
      rw [List.append_assoc] at this
      cases hc : tokenCall c t (w, f) <;> rw [hc] at this <;> exact this

theorem sumOf_cons (f : Entry → Nat) (e : Entry) (l : List Entry) : sumOf f (e :: l) = f e + sumOf f l := by simp [sumOf]

variable {valid : Addr → Prop} {strict : Prop} {b : Book}

theorem bal_one {e : Entry} (h : b.May valid (Past e.block) strict e.by_ e.msg) (a : Addr) :
    (b.after e.by_ e.msg).bal a + e.debits a = b.bal a + e.credits a := by
  obtain ⟨blk, u, m⟩ := e
  cases m <;> simp only [Book.May] at h <;> simp only [Book.after, Book.move, Book.destroy, Book.spend, Entry.debits, Entry.credits]
  case transfer dst x | send dst x _ =>
    obtain ⟨_, _, h⟩ := h
    simp only [eq_comm (a := u), eq_comm (a := dst)]
    by_cases e1 : a = u
    · subst e1; simp only [↓reduceIte]; omega
    · simp only [e1, ↓reduceIte]; omega
  case burn x =>
    simp only [eq_comm (a := u)]
    by_cases e1 : a = u
    · subst e1; simp only [↓reduceIte]; omega
    · simp only [e1, ↓reduceIte]; omega
  case mint dst x => simp only [eq_comm (a := dst)]; rfl
  case transferFrom o dst x | sendFrom o dst x _ =>
    obtain ⟨_, _, _, _, _, _, h⟩ := h
    simp only [eq_comm (a := o), eq_comm (a := dst)]
    by_cases e1 : a = o
    · subst e1; simp only [↓reduceIte]; omega
    · simp only [e1, ↓reduceIte]; omega
  case burnFrom o x =>
    obtain ⟨_, _, _, _, _, h⟩ := h
    simp only [eq_comm (a := o)]
    by_cases e1 : a = o
    · subst e1; simp only [↓reduceIte]; omega
    · simp only [e1, ↓reduceIte]; omega

theorem supply_one {e : Entry} (h : b.May valid (Past e.block) strict e.by_ e.msg) (hb : ∀ a, b.bal a ≤ b.supply) :
    (b.after e.by_ e.msg).supply + e.burns = b.supply + e.mints := by
  obtain ⟨blk, u, m⟩ := e
  cases m <;> simp only [Book.May] at h <;> simp only [Book.after, Book.move, Book.destroy, Book.spend, Entry.burns, Entry.mints, Nat.add_zero]
  case burn x => have := hb u; omega
  case burnFrom o x =>
    obtain ⟨_, _, _, _, _, h⟩ := h
    have := hb o
    omega

theorem allow_one {e : Entry} (h : b.May valid (Past e.block) strict e.by_ e.msg) (o sp : Addr) :
    (b.after e.by_ e.msg).allowance o sp + e.spends o sp ≤ b.allowance o sp + e.grants o sp ∧
    (¬ e.Revokes o sp → (b.after e.by_ e.msg).allowance o sp + e.spends o sp = b.allowance o sp + e.grants o sp) := by
  obtain ⟨blk, u, m⟩ := e
  have same : ∀ {x y : Nat}, x = y → x ≤ y ∧ (¬ (⟨blk, u, m⟩ : Entry).Revokes o sp → x = y) := fun h => ⟨h.le, fun _ => h⟩
  cases m <;> simp only [Book.May] at h
  case transfer | send | burn | mint | updateMinter => exact same rfl
  case increaseAllowance s x ex =>
    refine same ?_
    simp only [Book.allowance, Book.after, Entry.spends, Entry.grants]
    by_cases e : u = o ∧ s = sp
    · obtain ⟨rfl, rfl⟩ := e
      simp only [and_self, ↓reduceIte]
      cases b.allow u s <;> simp
    · rw [if_neg (by rintro ⟨rfl, rfl⟩; exact e ⟨rfl, rfl⟩), if_neg e]
  case decreaseAllowance s x ex =>
    simp only [Book.allowance, Book.after, Entry.spends, Entry.grants, Entry.Revokes]
    by_cases e : u = o ∧ s = sp
    · obtain ⟨rfl, rfl⟩ := e
      refine ⟨?_, fun h => absurd ⟨rfl, rfl⟩ h⟩
      simp only [and_self, ↓reduceIte]
      cases b.allow u s with
      | none => simp
      | some al =>
        simp only [Option.bind_some]
        split <;> simp
    · rw [if_neg (by rintro ⟨rfl, rfl⟩; exact e ⟨rfl, rfl⟩)]
      exact ⟨Nat.le_refl _, fun _ => rfl⟩
  case transferFrom p dst x | sendFrom p dst x _ =>
    refine same ?_
    obtain ⟨_, _, al, h1, _, h2, _⟩ := h
    simp only [Book.allowance, Book.after, Book.spend, Book.move, Entry.spends, Entry.grants]
    by_cases e : p = o ∧ u = sp
    · obtain ⟨rfl, rfl⟩ := e
      simp only [and_self, ↓reduceIte, h1, Option.map_some, Option.getD_some]
      omega
    · rw [if_neg (by rintro ⟨rfl, rfl⟩; exact e ⟨rfl, rfl⟩), if_neg e]
  case burnFrom p x =>
    refine same ?_
    obtain ⟨_, al, h1, _, h2, _⟩ := h
    simp only [Book.allowance, Book.after, Book.spend, Book.destroy, Entry.spends, Entry.grants]
    by_cases e : p = o ∧ u = sp
    · obtain ⟨rfl, rfl⟩ := e
      simp only [and_self, ↓reduceIte, h1, Option.map_some, Option.getD_some]
      omega
    · rw [if_neg (by rintro ⟨rfl, rfl⟩; exact e ⟨rfl, rfl⟩), if_neg e]

theorem bal_all (a : Addr) : ∀ {l : List Entry} {b : Book}, Book.Allowed valid strict b l →
    (b.replay l).bal a + sumOf (Entry.debits a) l = b.bal a + sumOf (Entry.credits a) l
  | [], _, _ => rfl
  | e :: l, b, h => by
    obtain ⟨⟨h1, _⟩, h2⟩ := allowed_cons.1 h
    have := bal_one h1 a
    have := bal_all a h2
    rw [replay_cons, sumOf_cons, sumOf_cons]
    omega

theorem supply_all : ∀ {l : List Entry} {b : Book}, Book.Allowed valid strict b l →
    (b.replay l).supply + sumOf Entry.burns l = b.supply + sumOf Entry.mints l
  | [], _, _ => rfl
  | e :: l, b, h => by
    obtain ⟨⟨h1, h3⟩, h2⟩ := allowed_cons.1 h
    have := supply_one h1 h3
    have := supply_all h2
    rw [replay_cons, sumOf_cons, sumOf_cons]
    omega

theorem allow_all (o sp : Addr) : ∀ {l : List Entry} {b : Book}, Book.Allowed valid strict b l →
    (b.replay l).allowance o sp + sumOf (Entry.spends o sp) l ≤ b.allowance o sp + sumOf (Entry.grants o sp) l ∧
    ((∀ e ∈ l, ¬ e.Revokes o sp) →
      (b.replay l).allowance o sp + sumOf (Entry.spends o sp) l = b.allowance o sp + sumOf (Entry.grants o sp) l)
  | [], _, _ => ⟨Nat.le_refl _, fun _ => rfl⟩
  | e :: l, b, h => by
    obtain ⟨⟨h1, _⟩, h2⟩ := allowed_cons.1 h
    obtain ⟨g1, g2⟩ := allow_one h1 o sp
    obtain ⟨g3, g4⟩ := allow_all o sp h2
    rw [replay_cons, sumOf_cons, sumOf_cons]
    refine ⟨by omega, fun hr => ?_⟩
    have := g2 (hr e List.mem_cons_self)
    have := g4 fun e' he => hr e' (List.mem_cons_of_mem _ he)
    omega

end ReplayL
open ReplayL

/-- **C95.** The book of a token after any history is the book before, with the calls of the token replayed one after the other, each of
them allowed at its time; nothing else changes it (unless the token's admin has replaced its code). -/
theorem C95_replay {c : Chain} {w w' : World} (hw : Reachable c w) {tr : List (World × Frame)} (hl : Hist c w tr w')
    {t : Addr} {adm : Option Addr} {s : TokenState} (ht : w.contracts t = some ⟨adm, .token s⟩) :
    (∃ adm', w'.contracts t = some ⟨adm', .other⟩) ∨ ∃ adm' s', w'.contracts t = some ⟨adm', .token s'⟩ ∧
      (s'.name = s.name ∧ s'.symbol = s.symbol ∧ s'.decimals = s.decimals) ∧ s'.book = s.book.replay (tokenCalls c t tr) ∧
      Book.Allowed c.api.Valid (c.api.refusesPast = true) s.book (tokenCalls c t tr) := by
  suffices h : Went c t s (tokenCalls c t tr) w' from h
  induction hl with
  | refl => exact .inr ⟨adm, s, ht, ⟨rfl, rfl, rfl⟩, rfl, allowed_nil⟩
  | tx tr adv gas v w' signer m hl hu hxx ih =>
    obtain ⟨n, hr⟩ := runTx_inv hxx
    rw [tokenCalls, List.filterMap_append]
    exact ih.run (hw.later hl.later).tokensOk hr
  | block tr v b hl ih => exact ih
  | env tr v bank' hl hb ih => exact ih

/-- **C95.** Every account is the sum of what the calls of the token paid to it and took from it, and so is the supply. -/
theorem C95_accounts {c : Chain} {w w' : World} (hw : Reachable c w) {tr : List (World × Frame)} (hl : Hist c w tr w')
    {t : Addr} {adm adm' : Option Addr} {s s' : TokenState} (ht : w.contracts t = some ⟨adm, .token s⟩)
    (ht' : w'.contracts t = some ⟨adm', .token s'⟩) :
    (∀ a, s'.book.bal a + sumOf (Entry.debits a) (tokenCalls c t tr) = s.book.bal a + sumOf (Entry.credits a) (tokenCalls c t tr)) ∧
    s'.book.supply + sumOf Entry.burns (tokenCalls c t tr) = s.book.supply + sumOf Entry.mints (tokenCalls c t tr) := by
  rcases C95_replay hw hl ht with ⟨_, h⟩ | ⟨_, _, h, _, h1, h2⟩ <;> rw [ht'] at h <;> cases h
  rw [h1]
  exact ⟨fun a => bal_all a h2, supply_all h2⟩

/-- **C95.** Over any history, nobody takes more from another account than they were allowed to take before plus what its owner granted
them since; exactly what is left is their allowance, unless the owner revoked some. -/
theorem C95_allowances {c : Chain} {w w' : World} (hw : Reachable c w) {tr : List (World × Frame)} (hl : Hist c w tr w')
    {t : Addr} {adm adm' : Option Addr} {s s' : TokenState} (ht : w.contracts t = some ⟨adm, .token s⟩)
    (ht' : w'.contracts t = some ⟨adm', .token s'⟩) (o sp : Addr) :
    s'.book.allowance o sp + sumOf (Entry.spends o sp) (tokenCalls c t tr) ≤
      s.book.allowance o sp + sumOf (Entry.grants o sp) (tokenCalls c t tr) ∧
    ((∀ e ∈ tokenCalls c t tr, ¬ e.Revokes o sp) →
      s'.book.allowance o sp + sumOf (Entry.spends o sp) (tokenCalls c t tr) =
        s.book.allowance o sp + sumOf (Entry.grants o sp) (tokenCalls c t tr)) := by
  rcases C95_replay hw hl ht with ⟨_, h⟩ | ⟨_, _, h, _, h1, h2⟩ <;> rw [ht'] at h <;> cases h
  rw [h1]
  exact allow_all o sp h2

namespace Demo

/-- Two swaps: in the first, `user` sends 1000 of token A to the pair. -/
private theorem tA_before : ∃ adm s, deployed.contracts tA = some ⟨adm, .token s⟩ :=
  (exists_token (w := deployed) (a := tA) (t := fun _ => true) (by decide +kernel)).imp fun _ => Exists.imp fun _ h => h.1
private theorem tA_after : ∃ adm s, swapped.contracts tA = some ⟨adm, .token s⟩ :=
  (exists_token (w := swapped) (a := tA) (t := fun _ => true) (by decide +kernel)).imp fun _ => Exists.imp fun _ h => h.1

example : True := by
  obtain ⟨adm, s, h⟩ := tA_before
  obtain ⟨adm', s', h'⟩ := tA_after
  have h1 := C95_replay deployed_reachable (hist_runs swapped_run) h
  have h2 := C95_accounts deployed_reachable (hist_runs swapped_run) h h'
  have h3 := C95_allowances deployed_reachable (hist_runs swapped_run) h h' user pAB
  trivial

/-- The token is called twice: by `user` and, in the second swap, by the pair. -/
example : (tokenCalls chain tA (traces backForth deployed)).map (fun e => (e.by_, e.msg)) =
    [(user, .send pAB 1000 (.swap none none none)), (pAB, .transfer user 938)] := by decide +kernel
example : sumOf (Entry.credits pAB) (tokenCalls chain tA (traces backForth deployed)) = 1000 ∧
    sumOf (Entry.debits pAB) (tokenCalls chain tA (traces backForth deployed)) = 938 := by decide +kernel

/-- An allowance granted, used and partly taken back. -/
def lend : List CosmosMsg :=
  [.exec tA (.increaseAllowance user2 100 none) [], .exec tA (.increaseAllowance user2 50 none) [], .exec tA (.decreaseAllowance user2 30 none) []]
def lent : World := worldOf (runs lend deployed)
theorem lent_run : runs lend deployed = .ok lent := worldOf_eq (by decide +kernel)
example : sumOf (Entry.grants user user2) (tokenCalls chain tA (traces lend deployed)) = 150 ∧
    sumOf (Entry.spends user user2) (tokenCalls chain tA (traces lend deployed)) = 0 := by decide +kernel

/-- Used inside a transaction: the pair takes a deposit. -/
example : sumOf (Entry.spends user pAB) (tokenCalls chain tA (traces [.exec pAB (.provideLiquidity (⟨.token tA, 1000⟩, ⟨.token tB, 2000⟩)
    none none) []] deployed)) = 1000 := by decide +kernel

end Demo
end Halo
