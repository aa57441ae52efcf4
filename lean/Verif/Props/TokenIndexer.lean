import Verif.TokenLog
import Verif.Spec.TokenIndexer
import Verif.Props.Indexer
import Verif.Props.Close
/-! # What an indexer can learn from the texts of a token (C106) -/

namespace Halo
open _root_.Halo.Spec

/-- The indexer is right about balances, supply and allowances. -/
structure Spec.Known20.Right (b : Known20) (s : TokenState) : Prop where
  bal : ∀ a, b.bal a = s.balances.getD0 a
  supply : b.supply = s.totalSupply
  allow : ∀ o sp, b.allow o sp = ((s.allowances.get (o, sp)).map Allowance.amount).getD 0

namespace TokenIndexerL

/-- All that an announcement says. -/
structure Says (as : List (Str × Str)) (action src dst by_ owner spender new amount : Option Str) : Prop where
  action : as.lookup (asc "action") = action
  src : as.lookup (asc "from") = src
  dst : as.lookup (asc "to") = dst
  by_ : as.lookup (asc "by") = by_
  owner : as.lookup (asc "owner") = owner
  spender : as.lookup (asc "spender") = spender
  new : as.lookup (asc "new_minter") = new
  amount : as.lookup (asc "amount") = amount

/-- As `Right`, for a book. -/
def Fits (k : Known20) (b : Book) : Prop :=
  (∀ a, k.bal a = b.bal a) ∧ k.supply = b.supply ∧ ∀ o sp, k.allow o sp = b.allowance o sp

variable {u : Addr} {k : Known20} {b : Book} {valid : Addr → Prop} {past : Expiration → Prop} {strict : Prop}

private theorem acts : asc "transfer" ≠ asc "increase_allowance" ∧ asc "transfer" ≠ asc "decrease_allowance" ∧
    asc "send" ≠ asc "increase_allowance" ∧ asc "send" ≠ asc "decrease_allowance" ∧
    asc "burn" ≠ asc "increase_allowance" ∧ asc "burn" ≠ asc "decrease_allowance" ∧
    asc "mint" ≠ asc "increase_allowance" ∧ asc "mint" ≠ asc "decrease_allowance" ∧
    asc "transfer_from" ≠ asc "increase_allowance" ∧ asc "transfer_from" ≠ asc "decrease_allowance" ∧
    asc "send_from" ≠ asc "increase_allowance" ∧ asc "send_from" ≠ asc "decrease_allowance" ∧
    asc "burn_from" ≠ asc "increase_allowance" ∧ asc "burn_from" ≠ asc "decrease_allowance" ∧
    asc "update_minter" ≠ asc "increase_allowance" ∧ asc "update_minter" ≠ asc "decrease_allowance" ∧
    asc "increase_allowance" ≠ asc "decrease_allowance" := by decide

theorem fits_one {m : ExecMsg} (hk : Fits k b) (hm : b.May valid past strict u m) (hb : ∀ a, b.bal a ≤ b.supply) :
    Fits (k.read (tokenAttributes u m)) (b.after u m) := by
  obtain ⟨k1, k2, k3⟩ := hk
  obtain ⟨a1, a2, a3, a4, a5, a6, a7, a8, a9, a10, a11, a12, a13, a14, a15, a16, a17⟩ := acts
  have sym : ∀ x y : Str, (x = y) = (y = x) := fun x y => propext eq_comm
  cases m <;> simp only [Book.May] at hm
  case transfer r x =>
    have S : Says (tokenAttributes u (.transfer r x)) (some (asc "transfer")) (some u) (some r) none none none none
      (some (natToDec x)) := ⟨rfl, rfl, rfl, rfl, rfl, rfl, rfl, rfl⟩
    refine ⟨fun a => ?_, ?_, fun o sp => ?_⟩
    · simp only [Known20.read, when, amountOf, S.src, S.dst, S.amount, Option.getD_some, number_eq, Option.some.injEq,
        Book.after, Book.move, k1, sym a]
    · simp only [Known20.read, amountOf, S.src, S.dst, S.amount, Option.getD_some, number_eq, Option.isSome_some, if_true,
        Nat.add_sub_cancel, k2]
      rfl
    · simp only [Known20.read, when, amountOf, S.src, S.by_, S.action, Option.some.injEq, a1, a2, if_false, reduceCtorEq,
        ite_self, Nat.add_zero, Nat.sub_zero, k3]
      rfl
  case send r x h =>
    have S : Says (tokenAttributes u (.send r x h)) (some (asc "send")) (some u) (some r) none none none none
      (some (natToDec x)) := ⟨rfl, rfl, rfl, rfl, rfl, rfl, rfl, rfl⟩
    refine ⟨fun a => ?_, ?_, fun o sp => ?_⟩
    · simp only [Known20.read, when, amountOf, S.src, S.dst, S.amount, Option.getD_some, number_eq, Option.some.injEq,
        Book.after, Book.move, k1, sym a]
    · simp only [Known20.read, amountOf, S.src, S.dst, S.amount, Option.getD_some, number_eq, Option.isSome_some, if_true,
        Nat.add_sub_cancel, k2]
      rfl
    · simp only [Known20.read, when, amountOf, S.src, S.by_, S.action, Option.some.injEq, a3, a4, if_false, reduceCtorEq,
        ite_self, Nat.add_zero, Nat.sub_zero, k3]
      rfl
  case burn x =>
    have S : Says (tokenAttributes u (.burn x)) (some (asc "burn")) (some u) none none none none none
      (some (natToDec x)) := ⟨rfl, rfl, rfl, rfl, rfl, rfl, rfl, rfl⟩
    refine ⟨fun a => ?_, ?_, fun o sp => ?_⟩
    · simp only [Known20.read, when, amountOf, S.src, S.dst, S.amount, Option.getD_some, number_eq, Option.some.injEq,
        Book.after, Book.destroy, k1, sym a, reduceCtorEq, if_false, Nat.add_zero]
    · simp only [Known20.read, amountOf, S.src, S.dst, S.amount, Option.getD_some, number_eq, Option.isSome_some, if_true,
        Option.isSome_none, Bool.false_eq_true, if_false, Nat.add_zero, k2, Book.after, Book.destroy]
    · simp only [Known20.read, when, amountOf, S.src, S.by_, S.action, Option.some.injEq, a5, a6, if_false, reduceCtorEq,
        ite_self, Nat.add_zero, Nat.sub_zero, k3]
      rfl
  case mint r x =>
    have S : Says (tokenAttributes u (.mint r x)) (some (asc "mint")) none (some r) none none none none
      (some (natToDec x)) := ⟨rfl, rfl, rfl, rfl, rfl, rfl, rfl, rfl⟩
    refine ⟨fun a => ?_, ?_, fun o sp => ?_⟩
    · simp only [Known20.read, when, amountOf, S.src, S.dst, S.amount, Option.getD_some, number_eq, Option.some.injEq,
        Book.after, k1, sym a, reduceCtorEq, if_false, Nat.sub_zero]
    · simp only [Known20.read, amountOf, S.src, S.dst, S.amount, Option.getD_some, number_eq, Option.isSome_some, if_true,
        Option.isSome_none, Bool.false_eq_true, if_false, Nat.sub_zero, k2, Book.after]
    · simp only [Known20.read, when, amountOf, S.src, S.by_, S.action, Option.some.injEq, a7, a8, if_false, reduceCtorEq,
        ite_self, Nat.add_zero, Nat.sub_zero, k3]
      rfl
  case increaseAllowance s x e =>
    have S : Says (tokenAttributes u (.increaseAllowance s x e)) (some (asc "increase_allowance")) none none none (some u) (some s) none
      (some (natToDec x)) := ⟨rfl, rfl, rfl, rfl, rfl, rfl, rfl, rfl⟩
    refine ⟨fun a => ?_, ?_, fun o sp => ?_⟩
    · simp only [Known20.read, when, S.src, S.dst, reduceCtorEq, if_false, Nat.sub_zero, Nat.add_zero, k1]
      rfl
    · simp only [Known20.read, S.src, S.dst, Option.isSome_none, Bool.false_eq_true, if_false, Nat.sub_zero, Nat.add_zero, k2]
      rfl
    · simp only [Known20.read, when, amountOf, S.src, S.action, S.owner, S.spender, S.amount, Option.getD_some, number_eq,
        Option.some.injEq, a17, if_false, if_true, reduceCtorEq, Nat.sub_zero, k3, Book.allowance, Book.after]
      by_cases h1 : u = o
      · subst h1
        by_cases h2 : s = sp
        · subst h2
          simp only [and_self, if_true]
          cases b.allow u s <;> simp
        · simp only [h2, if_false, if_true, Nat.add_zero]
          rw [if_neg (by rintro ⟨_, rfl⟩; exact h2 rfl)]
      · simp only [h1, if_false, Nat.add_zero]
        rw [if_neg (by rintro ⟨rfl, _⟩; exact h1 rfl)]
  case decreaseAllowance s x e =>
    have S : Says (tokenAttributes u (.decreaseAllowance s x e)) (some (asc "decrease_allowance")) none none none (some u) (some s) none
      (some (natToDec x)) := ⟨rfl, rfl, rfl, rfl, rfl, rfl, rfl, rfl⟩
    refine ⟨fun a => ?_, ?_, fun o sp => ?_⟩
    · simp only [Known20.read, when, S.src, S.dst, reduceCtorEq, if_false, Nat.sub_zero, Nat.add_zero, k1]
      rfl
    · simp only [Known20.read, S.src, S.dst, Option.isSome_none, Bool.false_eq_true, if_false, Nat.sub_zero, Nat.add_zero, k2]
      rfl
    · simp only [Known20.read, when, amountOf, S.src, S.action, S.owner, S.spender, S.amount, Option.getD_some, number_eq,
        Option.some.injEq, a17.symm, if_false, if_true, reduceCtorEq, Nat.sub_zero, Nat.add_zero, k3, Book.allowance, Book.after]
      by_cases h1 : u = o
      · subst h1
        by_cases h2 : s = sp
        · subst h2
          simp only [and_self, if_true]
          cases b.allow u s with
          | none => simp
          | some al =>
            simp only [Option.map_some, Option.getD_some, Option.bind_some]
            split
            · simp
            · simp; omega
        · simp only [h2, if_false, if_true, Nat.sub_zero]
          rw [if_neg (by rintro ⟨_, rfl⟩; exact h2 rfl)]
      · simp only [h1, if_false, Nat.sub_zero]
        rw [if_neg (by rintro ⟨rfl, _⟩; exact h1 rfl)]
  case transferFrom p r x =>
    have S : Says (tokenAttributes u (.transferFrom p r x)) (some (asc "transfer_from")) (some p) (some r) (some u) none none none
      (some (natToDec x)) := ⟨rfl, rfl, rfl, rfl, rfl, rfl, rfl, rfl⟩
    obtain ⟨_, _, al, g1, _, g2, _⟩ := hm
    refine ⟨fun a => ?_, ?_, fun o sp => ?_⟩
    · simp only [Known20.read, when, amountOf, S.src, S.dst, S.amount, Option.getD_some, number_eq, Option.some.injEq,
        Book.after, Book.move, Book.spend, k1, sym a]
    · simp only [Known20.read, amountOf, S.src, S.dst, S.amount, Option.getD_some, number_eq, Option.isSome_some, if_true,
        Nat.add_sub_cancel, k2]
      rfl
    · simp only [Known20.read, when, amountOf, S.src, S.by_, S.action, S.amount, Option.getD_some, number_eq, Option.some.injEq,
        a9, a10, if_false, Nat.add_zero, Nat.sub_zero, k3, Book.allowance, Book.after, Book.spend, Book.move]
      by_cases h1 : p = o
      · subst h1
        by_cases h2 : u = sp
        · subst h2
          simp only [and_self, if_true, g1, Option.map_some, Option.getD_some]
        · simp only [h2, if_false, if_true, Nat.sub_zero]
          rw [if_neg (by rintro ⟨_, rfl⟩; exact h2 rfl)]
      · simp only [h1, if_false, Nat.sub_zero]
        rw [if_neg (by rintro ⟨rfl, _⟩; exact h1 rfl)]
  case sendFrom p r x h =>
    have S : Says (tokenAttributes u (.sendFrom p r x h)) (some (asc "send_from")) (some p) (some r) (some u) none none none
      (some (natToDec x)) := ⟨rfl, rfl, rfl, rfl, rfl, rfl, rfl, rfl⟩
    obtain ⟨_, _, al, g1, _, g2, _⟩ := hm
    refine ⟨fun a => ?_, ?_, fun o sp => ?_⟩
    · simp only [Known20.read, when, amountOf, S.src, S.dst, S.amount, Option.getD_some, number_eq, Option.some.injEq,
        Book.after, Book.move, Book.spend, k1, sym a]
    · simp only [Known20.read, amountOf, S.src, S.dst, S.amount, Option.getD_some, number_eq, Option.isSome_some, if_true,
        Nat.add_sub_cancel, k2]
      rfl
    · simp only [Known20.read, when, amountOf, S.src, S.by_, S.action, S.amount, Option.getD_some, number_eq, Option.some.injEq,
        a11, a12, if_false, Nat.add_zero, Nat.sub_zero, k3, Book.allowance, Book.after, Book.spend, Book.move]
      by_cases h1 : p = o
      · subst h1
        by_cases h2 : u = sp
        · subst h2
          simp only [and_self, if_true, g1, Option.map_some, Option.getD_some]
        · simp only [h2, if_false, if_true, Nat.sub_zero]
          rw [if_neg (by rintro ⟨_, rfl⟩; exact h2 rfl)]
      · simp only [h1, if_false, Nat.sub_zero]
        rw [if_neg (by rintro ⟨rfl, _⟩; exact h1 rfl)]
  case burnFrom p x =>
    have S : Says (tokenAttributes u (.burnFrom p x)) (some (asc "burn_from")) (some p) none (some u) none none none
      (some (natToDec x)) := ⟨rfl, rfl, rfl, rfl, rfl, rfl, rfl, rfl⟩
    obtain ⟨_, al, g1, _, g2, _⟩ := hm
    refine ⟨fun a => ?_, ?_, fun o sp => ?_⟩
    · simp only [Known20.read, when, amountOf, S.src, S.dst, S.amount, Option.getD_some, number_eq, Option.some.injEq,
        Book.after, Book.destroy, Book.spend, k1, sym a, reduceCtorEq, if_false, Nat.add_zero]
    · simp only [Known20.read, amountOf, S.src, S.dst, S.amount, Option.getD_some, number_eq, Option.isSome_some, if_true,
        Option.isSome_none, Bool.false_eq_true, if_false, Nat.add_zero, k2, Book.after, Book.destroy, Book.spend]
    · simp only [Known20.read, when, amountOf, S.src, S.by_, S.action, S.amount, Option.getD_some, number_eq, Option.some.injEq,
        a13, a14, if_false, Nat.add_zero, Nat.sub_zero, k3, Book.allowance, Book.after, Book.spend, Book.destroy]
      by_cases h1 : p = o
      · subst h1
        by_cases h2 : u = sp
        · subst h2
          simp only [and_self, if_true, g1, Option.map_some, Option.getD_some]
        · simp only [h2, if_false, if_true, Nat.sub_zero]
          rw [if_neg (by rintro ⟨_, rfl⟩; exact h2 rfl)]
      · simp only [h1, if_false, Nat.sub_zero]
        rw [if_neg (by rintro ⟨rfl, _⟩; exact h1 rfl)]
  case updateMinter new =>
    have S : Says (tokenAttributes u (.updateMinter new)) (some (asc "update_minter")) none none none none none
      (some (new.getD (asc "None"))) none := ⟨rfl, rfl, rfl, rfl, rfl, rfl, rfl, rfl⟩
    refine ⟨fun a => ?_, ?_, fun o sp => ?_⟩
    · simp only [Known20.read, when, S.src, S.dst, reduceCtorEq, if_false, Nat.sub_zero, Nat.add_zero, k1]
      rfl
    · simp only [Known20.read, S.src, S.dst, Option.isSome_none, Bool.false_eq_true, if_false, Nat.sub_zero, Nat.add_zero, k2]
      rfl
    · simp only [Known20.read, when, S.src, S.action, Option.some.injEq, a15, a16, if_false, reduceCtorEq, Nat.add_zero,
        Nat.sub_zero, k3]
      rfl

/-- The announcements of the calls. -/
def texts (l : List Entry) : List (List (Str × Str)) := l.map fun e => tokenAttributes e.by_ e.msg

theorem fits_all {strict : Prop} : ∀ {l : List Entry} {k : Known20} {b : Book}, Fits k b → Book.Allowed valid strict b l →
    Fits (k.readAll (texts l)) (b.replay l)
  | [], _, _, h, _ => h
  | e :: l, k, b, h, ha => by
    obtain ⟨⟨h1, h2⟩, h3⟩ := ReplayL.allowed_cons.1 ha
    exact fits_all (l := l) (fits_one h h1 h2) h3

theorem right_iff {k : Known20} {s : TokenState} : k.Right s ↔ Fits k s.book := by
  have e : ∀ o sp, s.book.allowance o sp = ((s.allowances.get (o, sp)).map Allowance.amount).getD 0 := by
    intro o sp
    simp only [Book.allowance, TokenState.book, Option.map_map]
    rfl
  constructor
  · rintro ⟨h1, h2, h3⟩
    exact ⟨h1, h2, fun o sp => (h3 o sp).trans (e o sp).symm⟩
  · rintro ⟨h1, h2, h3⟩
    exact ⟨h1, h2, fun o sp => (h3 o sp).trans (e o sp)⟩

/-- As long as `t` is a token it announces each call. -/
theorem said_step {c : Chain} {t : Addr} {w : World} {f : Frame} {adm : Option Addr} {s : TokenState}
    (ht : w.contracts t = some ⟨adm, .token s⟩) :
    tokenSaid c t (w, f) = (tokenCall c t (w, f)).map fun e => tokenAttributes e.by_ e.msg := by
  cases f with
  | reply => rfl
  | msg u m =>
    obtain ⟨m, id⟩ := m
    cases m <;> try rfl
    rename_i a m fu
    simp only [tokenSaid, tokenCall, ht]
    cases c.api.resolve a with
    | error e => simp
    | ok self =>
      simp only [Except.ok.injEq]
      split <;> simp

/-- `t` is foreign code by now, or it has announced exactly the calls. -/
def Spoke (c : Chain) (t : Addr) (tr : List (World × Frame)) (w : World) : Prop :=
  (∃ adm, w.contracts t = some ⟨adm, .other⟩) ∨
    (∃ adm s, w.contracts t = some ⟨adm, .token s⟩) ∧ tokenLog c t tr = texts (tokenCalls c t tr)

theorem Spoke.run {c : Chain} {adv : Adv} {t : Addr} : ∀ {n n' : Nat} {w w' : World} {fs : List Frame} {tr : List (World × Frame)},
    Spoke c t tr w → run c adv n w fs = .ok (n', w') → Spoke c t (tr ++ trace c adv n w fs) w' := by
  intro n
  induction n with
  | zero =>
    intro n' w w' fs tr hp h
    cases fs with
    | nil => cases h; simpa [trace] using hp
    | cons => cases h
  | succ n ih =>
    intro n' w w' fs tr hp h
    cases fs with
    | nil => cases h; simpa [trace] using hp
    | cons f fs =>
      obtain ⟨m, w1, fs1, he, hs, hr⟩ := run_cons_inv h
      cases he
      have hs' := step_inv hs
      rw [trace_cons hs, ← List.singleton_append, ← List.append_assoc]
      refine ih ?_ hr
      rcases hp with ⟨adm, ho⟩ | ⟨⟨adm, s, h1⟩, h2⟩
      · exact .inl ((other_step hs' ho).imp fun _ h => h.1)
      · rcases ReplayL.entry_step hs' h1 with ho | ⟨adm', s', g1, _⟩
        · exact .inl ho
        · refine .inr ⟨⟨_, _, g1⟩, ?_⟩
          unfold tokenLog texts tokenCalls at h2 ⊢
          rw [List.filterMap_append, List.filterMap_append, h2, List.map_append]
          congr 1
          simp only [List.filterMap_cons, List.filterMap_nil, said_step h1]
          cases tokenCall c t (w, f) <;> rfl

theorem Spoke.hist {c : Chain} {t : Addr} {w w' : World} {tr : List (World × Frame)} (hl : Hist c w tr w')
    {adm : Option Addr} {s : TokenState} (ht : w.contracts t = some ⟨adm, .token s⟩) : Spoke c t tr w' := by
  induction hl with
  | refl => exact .inr ⟨⟨_, _, ht⟩, rfl⟩
  | tx tr adv gas v w' signer m hl hu hxx ih =>
    obtain ⟨n, hr⟩ := runTx_inv hxx
    exact ih.run hr
  | block tr v b hl ih => exact ih
  | env tr v bank' hl hb ih => exact ih

end TokenIndexerL
open TokenIndexerL

/-- **C106.** Somebody who knew the balances, the supply and the allowances of a token at some time, and reads what the token has
announced since, as text, knows them exactly, after any history (unless the token's admin has replaced its code). -/
theorem C106_indexer {c : Chain} {w w' : World} (hw : Reachable c w) {tr : List (World × Frame)} (hl : Hist c w tr w')
    {t : Addr} {adm adm' : Option Addr} {s s' : TokenState} (ht : w.contracts t = some ⟨adm, .token s⟩)
    (ht' : w'.contracts t = some ⟨adm', .token s'⟩) {k : Known20} (hk : k.Right s) :
    (k.readAll (tokenLog c t tr)).Right s' := by
  rcases Spoke.hist hl ht with ⟨_, h⟩ | ⟨_, h⟩
  · rw [ht'] at h; cases h
  rcases C95_replay hw hl ht with ⟨_, h1⟩ | ⟨_, _, h1, _, h2, h3⟩ <;> rw [ht'] at h1 <;> cases h1
  rw [right_iff, h, h2]
  exact fits_all (right_iff.mp hk) h3

namespace TokenIndexerL

private theorem upd : asc "transfer" ≠ asc "update_minter" ∧ asc "send" ≠ asc "update_minter" ∧
    asc "burn" ≠ asc "update_minter" ∧ asc "mint" ≠ asc "update_minter" ∧ asc "transfer_from" ≠ asc "update_minter" ∧
    asc "send_from" ≠ asc "update_minter" ∧ asc "burn_from" ≠ asc "update_minter" ∧
    asc "increase_allowance" ≠ asc "update_minter" ∧ asc "decrease_allowance" ≠ asc "update_minter" := by decide

theorem minter_one {u : Addr} {k : Known20} {b : Book} {valid : Addr → Prop} {past : Expiration → Prop} {strict : Prop}
    {m : ExecMsg} (hN : ¬ valid (asc "None")) (hk : k.minter = b.minter.map Prod.fst) (hm : b.May valid past strict u m) :
    (k.read (tokenAttributes u m)).minter = (b.after u m).minter.map Prod.fst := by
  obtain ⟨a1, a2, a3, a4, a5, a6, a7, a8, a9⟩ := upd
  have skip : ∀ {as : List (Str × Str)} {x : Str}, as.lookup (asc "action") = some x → x ≠ asc "update_minter" →
      (k.read as).minter = b.minter.map Prod.fst := by
    intro as x h1 h2
    simp only [Known20.read, h1, Option.some.injEq, h2, if_false, hk]
  cases m <;> simp only [Book.May] at hm
  case transfer => exact skip rfl a1
  case send => exact skip rfl a2
  case burn => exact skip rfl a3
  case mint => exact skip rfl a4
  case transferFrom => exact skip rfl a5
  case sendFrom => exact skip rfl a6
  case burnFrom => exact skip rfl a7
  case increaseAllowance => exact skip rfl a8
  case decreaseAllowance => exact skip rfl a9
  case updateMinter new =>
    obtain ⟨⟨cap, h1⟩, h2⟩ := hm
    have e1 : (tokenAttributes u (.updateMinter new)).lookup (asc "action") = some (asc "update_minter") := rfl
    have e2 : (tokenAttributes u (.updateMinter new)).lookup (asc "new_minter") = some (new.getD (asc "None")) := rfl
    simp only [Known20.read, e1, e2, if_true, Book.after, h1]
    cases new with
    | none => simp
    | some a =>
      have : a ≠ asc "None" := by rintro rfl; exact hN (h2 _ rfl)
      simp [this]

theorem minter_all {valid : Addr → Prop} {strict : Prop} (hN : ¬ valid (asc "None")) :
    ∀ {l : List Entry} {k : Known20} {b : Book}, k.minter = b.minter.map Prod.fst → Book.Allowed valid strict b l →
    (k.readAll (texts l)).minter = (b.replay l).minter.map Prod.fst
  | [], _, _, h, _ => h
  | e :: l, k, b, h, ha => by
    obtain ⟨⟨h1, h2⟩, h3⟩ := ReplayL.allowed_cons.1 ha
    exact minter_all (l := l) hN (minter_one hN h h1) h3

theorem made_eq (e : Entry) : made (tokenAttributes e.by_ e.msg) = e.mints := by
  obtain ⟨blk, u, m⟩ := e
  cases m <;> try rfl
  exact number_eq _

theorem unmade_eq (p : Addr) (e : Entry) : unmade p (tokenAttributes e.by_ e.msg) = if e.by_ = p then e.burns else 0 := by
  obtain ⟨blk, u, m⟩ := e
  have zero : ∀ {as : List (Str × Str)}, ((as.lookup (asc "from")).isSome = false ∨ ∃ x, as.lookup (asc "to") = some x) → unmade p as = 0 := by
    intro as h
    refine if_neg ?_
    rintro ⟨h1, h2, _⟩
    rcases h with h | h
    · rw [h] at h1; cases h1
    · obtain ⟨x, h⟩ := h; rw [h] at h2; cases h2
  cases m
  case burn x =>
    have e1 : (tokenAttributes u (.burn x)).lookup (asc "from") = some u := rfl
    have e2 : (tokenAttributes u (.burn x)).lookup (asc "to") = none := rfl
    have e3 : asker (tokenAttributes u (.burn x)) = some u := rfl
    have e4 : amountOf (tokenAttributes u (.burn x)) = x := number_eq x
    simp [unmade, e1, e2, e3, e4, Entry.burns]
  case burnFrom o x =>
    have e1 : (tokenAttributes u (.burnFrom o x)).lookup (asc "from") = some o := rfl
    have e2 : (tokenAttributes u (.burnFrom o x)).lookup (asc "to") = none := rfl
    have e3 : asker (tokenAttributes u (.burnFrom o x)) = some u := rfl
    have e4 : amountOf (tokenAttributes u (.burnFrom o x)) = x := number_eq x
    simp [unmade, e1, e2, e3, e4, Entry.burns]
  case transfer | send | transferFrom | sendFrom => rw [zero (.inr ⟨_, rfl⟩)]; simp [Entry.burns]
  all_goals rw [zero (.inl rfl)]; simp [Entry.burns]

end TokenIndexerL

/-- **C106.** And they know who may mint, if nobody can have the address "None", which is how a token announces that there is no
minter any more. -/
theorem C106_minter {c : Chain} (hN : ¬ c.api.Valid (asc "None")) {w w' : World} (hw : Reachable c w)
    {tr : List (World × Frame)} (hl : Hist c w tr w') {t : Addr} {adm adm' : Option Addr} {s s' : TokenState}
    (ht : w.contracts t = some ⟨adm, .token s⟩) (ht' : w'.contracts t = some ⟨adm', .token s'⟩) {k : Known20}
    (hk : k.minter = s.mint.map MinterData.minter) :
    (k.readAll (tokenLog c t tr)).minter = s'.mint.map MinterData.minter := by
  rcases Spoke.hist hl ht with ⟨_, h⟩ | ⟨_, h⟩
  · rw [ht'] at h; cases h
  rcases C95_replay hw hl ht with ⟨_, h1⟩ | ⟨_, _, h1, _, h2, h3⟩ <;> rw [ht'] at h1 <;> cases h1
  have e : ∀ s : TokenState, s.book.minter.map Prod.fst = s.mint.map MinterData.minter := fun s => by
    simp only [TokenState.book, Option.map_map]; rfl
  rw [h, ← e, h2]
  exact minter_all hN (hk.trans (e s).symm) h3

/-- **C106.** Nobody can make a token announce something in another's name: whoever is named as having asked for what is announced
sent the message, and where nobody is named the token's minter did. -/
theorem C106_asker {c : Chain} {adv : Adv} {n : Nat} {w w' : World} {f : Frame} {fs : List Frame}
    (h : step c adv n w f = .ok (w', fs)) {t : Addr} {as : List (Str × Str)} (hs : tokenSaid c t (w, f) = some as) :
    asker as = some f.actor ∨
      asker as = none ∧ ∃ adm s r, w.contracts t = some ⟨adm, .token s⟩ ∧ s.mint = some r ∧ r.minter = f.actor := by
  obtain ⟨adm, s, ht⟩ : ∃ adm s, w.contracts t = some ⟨adm, .token s⟩ := by
    unfold tokenSaid at hs
    split at hs
    · rename_i heq
      cases heq
      split at hs
      · exact ⟨_, _, ‹_›⟩
      · cases hs
    · cases hs
  have h1 := said_step (c := c) (f := f) ht
  rw [hs] at h1
  obtain ⟨e, he, rfl⟩ := Option.map_eq_some_iff.mp h1.symm
  have hm : s.book.May c.api.Valid (Past e.block) (c.api.refusesPast = true) e.by_ e.msg ∨
      ∃ adm, w'.contracts t = some ⟨adm, .other⟩ := by
    rcases ReplayL.entry_step (step_inv h) ht with ho | ⟨_, _, _, _, ⟨g, _⟩ | ⟨e', g1, g2, _⟩⟩
    · exact .inr ho
    · rw [he] at g; cases g
    · rw [he] at g1; cases g1; exact .inl g2
  have hf : f.actor = e.by_ := by
    unfold tokenCall at he
    split at he
    · rename_i heq
      cases heq
      split at he
      · cases he; rfl
      · cases he
    · cases he
  rw [hf]
  have hm' : s.book.May c.api.Valid (Past e.block) (c.api.refusesPast = true) e.by_ e.msg := by
    rcases hm with h | ⟨adm2, ho⟩
    · exact h
    · exfalso
      unfold tokenCall at he
      split at he
      · rename_i u a m fu id heq
        cases heq
        split at he
        · rename_i hres
          have hst := step_inv h
          cases hst with
          | token sender target m funds id me w1 admin s1 s' r hme hmv hr hc hx =>
            rw [hres] at hme
            cases hme
            simp only [World.setState, setContract_self] at ho
            cases ho
          | pair sender target m funds id me w1 admin s1 s' r hme hmv hr hc hx
          | factory sender target m funds id me w1 admin s1 s' r hme hmv hr hc hx
          | router sender target m funds id me w1 admin s1 s' r hme hmv hr hc hx =>
            rw [hres] at hme
            cases hme
            rw [ht] at hc; cases hc
          | other sender target m funds id me w1 admin ms hme hmv hc =>
            rw [hres] at hme
            cases hme
            rw [ht] at hc; cases hc
        · cases he
      · cases he
  obtain ⟨blk, u, m⟩ := e
  cases m <;> simp only [Book.May] at hm'
  case mint r x =>
    obtain ⟨_, _, _, cap, h2, _⟩ := hm'
    simp only [TokenState.book, Option.map_eq_some_iff, Prod.mk.injEq] at h2
    obtain ⟨r, h3, h4, _⟩ := h2
    exact .inr ⟨rfl, adm, s, r, ht, h3, h4⟩
  case updateMinter new =>
    obtain ⟨⟨cap, h2⟩, _⟩ := hm'
    simp only [TokenState.book, Option.map_eq_some_iff, Prod.mk.injEq] at h2
    obtain ⟨r, h3, h4, _⟩ := h2
    exact .inr ⟨rfl, adm, s, r, ht, h3, h4⟩
  all_goals exact .inl rfl

/-- **C106.** The announcements of a pair and of its LP token agree: what the pair says it created and destroyed is, on balance, what
the LP token says was created, and destroyed at the pair's request. -/
theorem C106_lp_agrees {c : Chain} (hc : c.Lawful) {w w' : World} (hw : Reachable c w) {tr : List (World × Frame)}
    {es : List (Addr × Event)} (hl : Logged c w tr es w') {k : PairSite} (hk : k.Known c w) :
    (∃ adm, w'.contracts k.a = some ⟨adm, .other⟩) ∨
    total created (saidBy k.a es) + ((tokenLog c k.lt tr).map (unmade k.a)).sum =
      total destroyed (saidBy k.a es) + ((tokenLog c k.lt tr).map made).sum := by
  rcases C102_supply hc hw hl hk with h | h
  · exact .inl h
  right
  obtain ⟨st, h1, _⟩ := (hk.is_open hc hw hk.token).lp
  obtain ⟨st', h2⟩ := PairSite.tok_noadmin_hist h1 hl.hist
  have h3 := (C95_accounts hw hl.hist h1 h2).2
  rw [supplyAt_token h1, supplyAt_token h2] at h
  have h4 : tokenLog c k.lt tr = texts (tokenCalls c k.lt tr) := by
    rcases Spoke.hist hl.hist h1 with ⟨_, h⟩ | ⟨_, h⟩
    · rw [h2] at h; cases h
    · exact h
  rw [h4]
  have e1 : ((texts (tokenCalls c k.lt tr)).map made).sum = sumOf Entry.mints (tokenCalls c k.lt tr) := by
    simp only [texts, List.map_map, sumOf]
    congr 1
    exact List.map_congr_left fun e _ => made_eq e
  have e2 : ((texts (tokenCalls c k.lt tr)).map (unmade k.a)).sum + sumOf (Entry.forgone k.a) (tokenCalls c k.lt tr) =
      sumOf Entry.burns (tokenCalls c k.lt tr) := by
    generalize tokenCalls c k.lt tr = l
    induction l with
    | nil => rfl
    | cons e l ih =>
      simp only [texts, List.map_cons, List.sum_cons, sumOf, unmade_eq] at ih ⊢
      unfold Entry.forgone at ih ⊢
      split <;> omega
  rw [e1]
  simp only [TokenState.book] at h3
  omega

/-! ## Examples -/

namespace Demo

/-- What token A announces when `user` sells 1000 of it and buys some back. -/
example : tokenLog chain tA (traces backForth deployed) =
    [[(asc "action", asc "send"), (asc "from", user), (asc "to", pAB), (asc "amount", asc "1000")],
     [(asc "action", asc "transfer"), (asc "from", pAB), (asc "to", user), (asc "amount", asc "938")]] := by decide +kernel

/-- An indexer that knew the book of A before these trades knows it afterwards. -/
example : ∃ adm s adm' s', deployed.contracts tA = some ⟨adm, .token s⟩ ∧ swapped.contracts tA = some ⟨adm', .token s'⟩ ∧
    ((⟨s.book.bal, s.totalSupply, s.book.allowance, none⟩ : Known20).readAll (tokenLog chain tA (traces backForth deployed))).Right s' := by
  obtain ⟨adm, s, h, _⟩ := exists_token (w := deployed) (a := tA) (t := fun _ => true) (by decide +kernel)
  obtain ⟨adm', s', h', _⟩ := exists_token (w := swapped) (a := tA) (t := fun _ => true) (by decide +kernel)
  exact ⟨adm, s, adm', s', h, h', C106_indexer deployed_reachable (hist_runs swapped_run) h h'
    (right_iff.mpr ⟨fun _ => rfl, rfl, fun _ _ => rfl⟩)⟩

/-- A swap, a deposit, a gift, a withdrawal and a burn by a holder: what the LP token announces created, and destroyed for the pair,
is what the pair announces. The 7 tokens `user` destroys are announced as well, but not as asked for by the pair. -/
example := C106_lp_agrees lawful deployed_reachable busy_logged sound_AB.known
example : (tokenLog chain lpAB (traces busyAB deployed)).map made = [1555, 0, 0, 0] ∧
    (tokenLog chain lpAB (traces busyAB deployed)).map (unmade pAB) = [0, 0, 500, 0] ∧
    (tokenLog chain lpAB (traces busyAB deployed)).map (unmade user) = [0, 0, 0, 7] ∧
    total created (saidBy pAB (logs busyAB deployed)) = 1555 ∧ total destroyed (saidBy pAB (logs busyAB deployed)) = 500 := by
  decide +kernel

/-- Allowances are announced too, and their use. -/
example : ((tokenLog chain tA (traces lend deployed)).foldl Known20.read ⟨fun _ => 0, 0, fun _ _ => 7, none⟩).allow user user2 = 127 := by
  decide +kernel

/-- A chain on which "None" is not an address. -/
def picky : Chain := { chain with api := { api with canon := fun s => if s = asc "None" then none else some s } }

theorem picky_none : ¬ picky.api.Valid (asc "None") := by
  intro h
  have : picky.api.validate (asc "None") = .ok (asc "None") := h
  exact absurd this (by decide +kernel)

theorem picky_user : picky.IsUser user := ⟨isUser_user.1, by decide +kernel⟩
theorem picky_user2 : picky.IsUser user2 := ⟨isUser_user2.1, by decide +kernel⟩

/-- `user` makes a token, hands the right to mint to `user2`, who gives it up. -/
def minted1 : World := worldOf (runTx picky idle 20 genesis user tokenMsg)
theorem minted1_run : runTx picky idle 20 genesis user tokenMsg = .ok minted1 := worldOf_eq (by decide +kernel)
def handOver : CosmosMsg := .exec tA (.updateMinter (some user2)) []
def minted2 : World := worldOf (runTx picky idle 20 minted1 user handOver)
theorem minted2_run : runTx picky idle 20 minted1 user handOver = .ok minted2 := worldOf_eq (by decide +kernel)
def giveUp : CosmosMsg := .exec tA (.updateMinter none) []
def minted3 : World := worldOf (runTx picky idle 20 minted2 user2 giveUp)
theorem minted3_run : runTx picky idle 20 minted2 user2 giveUp = .ok minted3 := worldOf_eq (by decide +kernel)
theorem minted1_reachable : Reachable picky minted1 :=
  .step _ _ (.genesis _ ⟨rfl, fun _ => rfl⟩) (.tx idle 20 _ _ user tokenMsg picky_user minted1_run)

/-- The indexer follows both changes. -/
example : ∃ adm s adm' s' adm'' s'', minted1.contracts tA = some ⟨adm, .token s⟩ ∧ minted2.contracts tA = some ⟨adm', .token s'⟩ ∧
    minted3.contracts tA = some ⟨adm'', .token s''⟩ ∧
    s.mint.map MinterData.minter = some user ∧ s'.mint.map MinterData.minter = some user2 ∧ s''.mint.map MinterData.minter = none ∧
    ∀ k : Known20, k.minter = some user →
      (k.readAll (tokenLog picky tA (trace picky idle 20 minted1 [.msg user (plain handOver)]))).minter = some user2 := by
  obtain ⟨adm, s, h, h2⟩ := exists_token (w := minted1) (a := tA) (t := fun s => s.2.mint.map MinterData.minter = some user) (by decide +kernel)
  obtain ⟨adm', s', h', h2'⟩ := exists_token (w := minted2) (a := tA) (t := fun s => s.2.mint.map MinterData.minter = some user2) (by decide +kernel)
  obtain ⟨adm'', s'', h'', h2''⟩ := exists_token (w := minted3) (a := tA) (t := fun s => s.2.mint.map MinterData.minter = none) (by decide +kernel)
  have e := of_decide_eq_true h2
  have e' := of_decide_eq_true h2'
  have e'' := of_decide_eq_true h2''
  refine ⟨adm, s, adm', s', adm'', s'', h, h', h'', e, e', e'', fun k hk => ?_⟩
  rw [← e']
  exact C106_minter picky_none minted1_reachable (by simpa using .tx _ idle 20 _ _ user handOver .refl picky_user minted2_run) h h' (hk.trans e.symm)

/-- Where "None" is an address, a minter of that name is announced like no minter, and both can be asked for. -/
example : tokenAttributes user (.updateMinter none) = tokenAttributes user (.updateMinter (some (asc "None"))) ∧
    (runs [.exec tA (.updateMinter none) []] deployed).isOk = true ∧
    (runs [.exec tA (.updateMinter (some (asc "None"))) []] deployed).isOk = true := ⟨rfl, by decide +kernel, by decide +kernel⟩

/-- A transfer names who asked for it. -/
example : tokenSaid chain tA (deployed, .msg user (plain (.exec tA (.transferFrom user pAB 5) []))) =
    some [(asc "action", asc "transfer_from"), (asc "from", user), (asc "to", pAB), (asc "by", user), (asc "amount", asc "5")] := by
  decide +kernel
example : ∃ w fs, step chain idle 20 deployed (.msg user (plain (.exec tA (.transfer pAB 5) []))) = .ok (w, fs) ∧
    ∃ as, tokenSaid chain tA (deployed, .msg user (plain (.exec tA (.transfer pAB 5) []))) = some as ∧ asker as = some user := by
  have h : isOk (step chain idle 20 deployed (.msg user (plain (.exec tA (.transfer pAB 5) [])))) = true := by decide +kernel
  cases e : step chain idle 20 deployed (.msg user (plain (.exec tA (.transfer pAB 5) []))) with
  | error => rw [e] at h; cases h
  | ok r =>
    exact ⟨r.1, r.2, rfl, [(asc "action", asc "transfer"), (asc "from", user), (asc "to", pAB), (asc "amount", asc "5")],
      by decide +kernel, by decide +kernel⟩

end Demo
end Halo
