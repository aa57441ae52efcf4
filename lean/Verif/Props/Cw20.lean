import Verif.Spec.Cw20
import Verif.Lemmas.LiveL
import Verif.Props.Router
/-! # The tokens are cw20 ledgers, exactly (C63) -/

namespace Halo
open _root_.Halo.Spec

/-- The book a token contract keeps. -/
def TokenState.book (s : TokenState) : Book where
  supply := s.totalSupply
  minter := s.mint.map fun m => (m.minter, m.cap)
  bal := s.balances.getD0
  allow o sp := (s.allowances.get (o, sp)).map fun al => (al.amount, al.expires)

/-- The well-formed addresses. -/
def Api.Valid (api : Api) (a : Addr) : Prop := api.validate a = .ok a

/-- The block is past the expiration. -/
def Past (blk : Block) : Expiration → Prop
  | .atHeight h => h ≤ blk.height
  | .atTime t => t ≤ blk.time
  | .never => False

private theorem past_iff {blk : Block} {e : Expiration} : ¬ Past blk e ↔ e.isExpired blk = false := by
  cases e <;> simp [Past, Expiration.isExpired]

private theorem book_move {s : TokenState} {src dst : Addr} {x : Nat} {al : AMap (Addr × Addr) Allowance} :
    ({ s with balances := Token.moveBal s.balances src dst x, allowances := al } : TokenState).book.bal =
      (s.book.move src dst x).bal := by
  funext a
  simp only [TokenState.book, Book.move, Token.moveBal_get]
  split <;> split <;> omega

private theorem book_destroy {s : TokenState} {o : Addr} {x : Nat} {al : AMap (Addr × Addr) Allowance} {n : Nat} :
    ({ s with balances := s.balances.set o (s.balances.getD0 o - x), allowances := al, totalSupply := n } : TokenState).book.bal =
      (s.book.destroy o x).bal := by
  funext a
  simp only [TokenState.book, Book.destroy, AMap.getD0_set]
  split
  · rename_i h; rw [h]
  · rfl

private theorem allow_set {s : TokenState} {o sp : Addr} {al : Allowance} {bs : AMap Addr Nat} {n : Nat} :
    ({ s with balances := bs, totalSupply := n, allowances := s.allowances.set (o, sp) al } : TokenState).book.allow =
      fun p q => if p = o ∧ q = sp then some (al.amount, al.expires) else s.book.allow p q := by
  funext p q
  simp only [TokenState.book, AMap.get_set, Prod.mk.injEq]
  split <;> rfl

private theorem allow_erase {s : TokenState} {o sp : Addr} {bs : AMap Addr Nat} {n : Nat} :
    ({ s with balances := bs, totalSupply := n, allowances := s.allowances.erase (o, sp) } : TokenState).book.allow =
      fun p q => if p = o ∧ q = sp then none else s.book.allow p q := by
  funext p q
  simp only [TokenState.book, AMap.get_erase, Prod.mk.injEq]
  split <;> rfl

private theorem Book.ext' {b b' : Book} (h1 : b.supply = b'.supply) (h2 : b.minter = b'.minter) (h3 : b.bal = b'.bal)
    (h4 : b.allow = b'.allow) : b = b' := by
  cases b; cases b'; cases h1; cases h2; cases h3; cases h4; rfl

theorem checkGrant_eq_ok {api : Api} {blk : Block} {e : Option Expiration} {u : Unit} :
    Token.checkGrant api blk e = .ok u ↔ (api.refusesPast = true → ∀ d, e = some d → ¬ Past blk d) := by
  rw [Token.checkGrant, require_eq_ok]
  cases api.refusesPast <;> cases e <;> simp [past_iff]

/-- One call of a token contract whose books are in order. -/
theorem execute_book {api : Api} {blk : Block} {s s' : TokenState} {u : Addr} {m : ExecMsg} {r : Response}
    (h : Token.execute api blk s u m = .ok (s', r)) :
    s.book.May api.Valid (Past blk) (api.refusesPast = true) u m ∧ s'.book = s.book.after u m ∧
    (s'.name = s.name ∧ s'.symbol = s.symbol ∧ s'.decimals = s.decimals) ∧
    r = { messages := (Book.notice u m).toList.map fun n => plain (.exec n.1 (.receive n.2.1 n.2.2.1 n.2.2.2) []) } := by
  have hh := h
  have usable : ∀ {o : Addr} {x : Nat} {a : Allowance}, s.allowances.get (o, u) = some a → a.expires.isExpired blk = false →
      x ≤ a.amount → x ≤ s.balances.getD0 o → s.book.Usable (Past blk) o u x := fun ha he hle hb =>
    ⟨_, by simp only [TokenState.book, ha]; rfl, past_iff.mpr he, hle, hb⟩
  cases Token.execute_inv h with
  | transfer dst x hx hv hb => exact ⟨⟨hx, hv, hb⟩, Book.ext' rfl rfl book_move rfl, ⟨rfl, rfl, rfl⟩, rfl⟩
  | send dst x hm hx hv hb => exact ⟨⟨hx, hv, hb⟩, Book.ext' rfl rfl book_move rfl, ⟨rfl, rfl, rfl⟩, rfl⟩
  | burn x hx hb => exact ⟨⟨hx, hb⟩, Book.ext' rfl rfl book_destroy rfl, ⟨rfl, rfl, rfl⟩, rfl⟩
  | mint dst x md hx hv hm hs hf hcap hb =>
    refine ⟨⟨hx, hv, hf, md.cap, ?_, hcap⟩, Book.ext' rfl rfl ?_ rfl, ⟨rfl, rfl, rfl⟩, rfl⟩
    · simp [TokenState.book, hm, hs]
    · funext a
      simp only [TokenState.book, Book.after, AMap.getD0_set]
      split
      · rename_i e; rw [e]
      · rfl
  | increase sp x e a hv hne =>
    simp only [Token.execute, Token.increaseAllowance, bind_eq_ok, require_eq_ok, pure_eq_ok, Prod.mk.injEq,
      Uint128.add_eq_ok, hv, Except.ok.injEq, exists_eq_left'] at hh
    obtain ⟨_, _, _, hg, _, ⟨h1, rfl⟩, h2, _⟩ := hh
    have h3 := congrArg (fun s : TokenState => s.allowances.get (u, sp)) h2
    simp only [AMap.get_set_self, Option.some.injEq] at h3
    subst h3
    refine ⟨⟨hv, hne, ?_, checkGrant_eq_ok.1 hg⟩, Book.ext' rfl rfl rfl ?_, ⟨rfl, rfl, rfl⟩, rfl⟩
    · revert h1
      simp only [TokenState.book]
      cases s.allowances.get (u, sp) <;> exact fun h => h
    · refine allow_set.trans ?_
      funext p q
      simp only [Book.after]
      split
      · simp only [TokenState.book]
        cases s.allowances.get (u, sp) with
        | none => simp
        | some al => simp
      · rfl
  | decrease sp x e a hv hne =>
    simp only [Token.execute, Token.decreaseAllowance, bind_eq_ok, require_eq_ok, hv, Except.ok.injEq,
      exists_eq_left', okOr_eq_ok] at hh
    obtain ⟨_, _, cur, hcur, hh⟩ := hh
    have hal : s.book.allow u sp = some (cur.amount, cur.expires) := by simp [TokenState.book, hcur]
    split at hh
    · rename_i hlt
      simp only [bind_eq_ok, pure_eq_ok, Prod.mk.injEq, Uint128.checkedSub_eq_ok] at hh
      obtain ⟨_, ⟨_, rfl⟩, _, hg, h2, _⟩ := hh
      have h3 := congrArg (fun s : TokenState => s.allowances.get (u, sp)) h2
      simp only [AMap.get_set_self, Option.some.injEq] at h3
      subst h3
      refine ⟨⟨hv, hne, _, hal, fun _ => checkGrant_eq_ok.1 hg⟩, Book.ext' rfl rfl rfl ?_, ⟨rfl, rfl, rfl⟩, rfl⟩
      refine allow_set.trans ?_
      funext p q
      simp only [Book.after, hal, Option.bind_some, hlt, ↓reduceIte]
    · rename_i hlt
      simp only [pure_eq_ok, Prod.mk.injEq] at hh
      have h3 := congrArg (fun s : TokenState => s.allowances.get (u, sp)) hh.1
      simp only [AMap.get_set_self, AMap.get_erase, ↓reduceIte] at h3
      cases h3
  | decreaseZero sp x e hv hne =>
    simp only [Token.execute, Token.decreaseAllowance, bind_eq_ok, require_eq_ok, hv, Except.ok.injEq,
      exists_eq_left', okOr_eq_ok] at hh
    obtain ⟨_, _, cur, hcur, hh⟩ := hh
    have hal : s.book.allow u sp = some (cur.amount, cur.expires) := by simp [TokenState.book, hcur]
    split at hh
    · rename_i hlt
      simp only [bind_eq_ok, pure_eq_ok, Prod.mk.injEq, Uint128.checkedSub_eq_ok] at hh
      obtain ⟨_, ⟨_, rfl⟩, _, hg, h2, _⟩ := hh
      have h3 := congrArg (fun s : TokenState => s.allowances.get (u, sp)) h2
      simp only [AMap.get_set_self, AMap.get_erase, ↓reduceIte] at h3
      cases h3
    · rename_i hlt
      refine ⟨⟨hv, hne, _, hal, fun h => absurd h hlt⟩, Book.ext' rfl rfl rfl ?_, ⟨rfl, rfl, rfl⟩, rfl⟩
      refine allow_erase.trans ?_
      funext p q
      simp only [Book.after, hal, Option.bind_some, hlt, ↓reduceIte]
  | transferFrom o dst x a hv ho ha he hle hb =>
    refine ⟨⟨ho, hv, usable ha he hle hb⟩, Book.ext' rfl rfl book_move (allow_set.trans ?_), ⟨rfl, rfl, rfl⟩, rfl⟩
    simp [Book.after, Book.spend, Book.move, TokenState.book, ha]
  | sendFrom o dst x hm a hv ho ha he hle hb =>
    refine ⟨⟨ho, hv, usable ha he hle hb⟩, Book.ext' rfl rfl book_move (allow_set.trans ?_), ⟨rfl, rfl, rfl⟩, rfl⟩
    simp [Book.after, Book.spend, Book.move, TokenState.book, ha]
  | burnFrom o x a ho ha he hle hb =>
    refine ⟨⟨ho, usable ha he hle hb⟩, Book.ext' rfl rfl book_destroy (allow_set.trans ?_), ⟨rfl, rfl, rfl⟩, rfl⟩
    simp [Book.after, Book.spend, Book.destroy, TokenState.book, ha]
  | renounce md hm hs =>
    exact ⟨⟨⟨md.cap, by simp [TokenState.book, hm, hs]⟩, by simp⟩, Book.ext' rfl rfl rfl rfl, ⟨rfl, rfl, rfl⟩, rfl⟩
  | newMinter a md hm hs hv =>
    refine ⟨⟨⟨md.cap, by simp [TokenState.book, hm, hs]⟩, fun a' e => by cases e; exact hv⟩, Book.ext' rfl ?_ rfl rfl,
      ⟨rfl, rfl, rfl⟩, rfl⟩
    simp [TokenState.book, Book.after, hm]

private theorem execute_of_may {api : Api} {blk : Block} {s : TokenState} (hi : Token.Inv s) {u : Addr} {m : ExecMsg}
    (h : s.book.May api.Valid (Past blk) (api.refusesPast = true) u m) : ∃ res, Token.execute api blk s u m = .ok res := by
  have use : ∀ {o : Addr} {x : Nat}, s.book.Usable (Past blk) o u x → Token.MayTake s blk o u x ∧ x ≤ s.balances.getD0 o := by
    rintro o x ⟨al, h1, h2, h3, h4⟩
    simp only [TokenState.book, Option.map_eq_some_iff] at h1
    obtain ⟨a, ha, rfl⟩ := h1
    exact ⟨⟨a, ha, past_iff.mp h2, h3⟩, h4⟩
  cases m <;> simp only [Book.May] at h
  case transfer dst x => exact ⟨_, Token.execute_transfer hi h.1 h.2.1 h.2.2⟩
  case send dst x hk => exact ⟨_, Token.execute_send hi h.1 h.2.1 h.2.2⟩
  case burn x => exact ⟨_, Token.execute_burn hi h.1 h.2⟩
  case mint dst x =>
    obtain ⟨hx, hv, hf, cap, hm, hc⟩ := h
    simp only [TokenState.book, Option.map_eq_some_iff] at hm
    obtain ⟨md, hm, he⟩ := hm
    obtain ⟨mi, cap'⟩ := md
    simp only [Prod.mk.injEq] at he
    obtain ⟨rfl, rfl⟩ := he
    have := hi.le_supply dst
    change s.totalSupply + x < B128 at hf
    simp only [Token.execute, Token.mint, bind_eq_ok, require_eq_ok, okOr_eq_ok, Token.getCap]
    refine ⟨({ s with totalSupply := s.totalSupply + x, balances := s.balances.set dst (s.balances.getD0 dst + x) }, {}),
      (), hx, _, hm, (), rfl, _, Uint128.add_eq_ok.mpr ⟨hf, rfl⟩, ?_⟩
    simp only [hm, Option.bind_some]
    have hcr : Token.credit { s with totalSupply := s.totalSupply + x, mint := some ⟨mi, cap'⟩ } dst x =
        .ok { s with totalSupply := s.totalSupply + x, mint := some ⟨mi, cap'⟩, balances := s.balances.set dst (s.balances.getD0 dst + x) } :=
      Token.credit_eq_ok.mpr ⟨by simp only; omega, rfl⟩
    cases cap' with
    | none =>
      simp only [bind_eq_ok]
      exact ⟨(), trivial, dst, hv, _, hcr, rfl⟩
    | some k =>
      simp only [bind_eq_ok]
      have := hc k rfl
      change s.totalSupply + x ≤ k at this
      exact ⟨(), require_eq_ok.mpr (by omega), dst, hv, _, hcr, rfl⟩
  case increaseAllowance sp x e =>
    obtain ⟨hv, hne, hf, hg⟩ := h
    simp only [Token.execute, Token.increaseAllowance, bind_eq_ok, require_eq_ok]
    refine ⟨_, sp, hv, (), hne, (), checkGrant_eq_ok.2 hg, _, Uint128.add_eq_ok.mpr ⟨?_, rfl⟩, rfl⟩
    revert hf
    simp only [TokenState.book]
    cases s.allowances.get (u, sp) <;> exact fun h => h
  case decreaseAllowance sp x e =>
    obtain ⟨hv, hne, al', hf, hok⟩ := h
    cases hg : s.allowances.get (u, sp) with
    | none => simp [TokenState.book, hg] at hf
    | some al =>
      simp only [TokenState.book, hg, Option.map_some, Option.some.injEq] at hf
      subst hf
      by_cases hlt : x < al.amount
      · refine ⟨({ s with allowances := s.allowances.set (u, sp) ⟨al.amount - x, e.getD al.expires⟩ }, {}), ?_⟩
        simp only [Token.execute, Token.decreaseAllowance, bind_eq_ok, require_eq_ok, okOr_eq_ok]
        refine ⟨sp, hv, (), hne, al, hg, ?_⟩
        rw [if_pos hlt, bind_eq_ok]
        simp only [bind_eq_ok]
        exact ⟨_, Uint128.checkedSub_eq_ok.mpr ⟨hlt.le, rfl⟩, (), checkGrant_eq_ok.2 (hok hlt), rfl⟩
      · refine ⟨({ s with allowances := s.allowances.erase (u, sp) }, {}), ?_⟩
        simp only [Token.execute, Token.decreaseAllowance, bind_eq_ok, require_eq_ok, okOr_eq_ok]
        refine ⟨sp, hv, (), hne, al, hg, ?_⟩
        rw [if_neg hlt]; rfl
  case transferFrom o dst x =>
    obtain ⟨ho, hv, hu⟩ := h
    obtain ⟨s', h'⟩ := Token.execute_transferFrom hi ho hv (use hu).2 (use hu).1
    exact ⟨_, h'⟩
  case sendFrom o dst x hk =>
    obtain ⟨ho, hv, hu⟩ := h
    obtain ⟨⟨a, h1, h2, h3⟩, hb⟩ := use hu
    have hf := Token.moveBal_fits hi (dst := dst) hb
    simp only [Token.moveBal, AMap.getD0_set, ↓reduceIte] at hf
    simp only [Token.execute, Token.sendFrom, bind_eq_ok, Token.deduct_eq_ok, Token.debit_eq_ok, Token.credit_eq_ok, pure_eq_ok]
    refine ⟨_, dst, hv, o, ho, _, ⟨a, h1, h2, h3, rfl⟩, _, ⟨hb, rfl⟩, _, ⟨?_, rfl⟩, rfl⟩
    simpa [AMap.getD0_set] using hf
  case burnFrom o x =>
    obtain ⟨ho, hu⟩ := h
    obtain ⟨⟨a, h1, h2, h3⟩, hb⟩ := use hu
    have := hi.le_supply o
    simp only [Token.execute, Token.burnFrom, bind_eq_ok, Token.deduct_eq_ok, Token.debit_eq_ok, Uint128.checkedSub_eq_ok,
      pure_eq_ok]
    exact ⟨_, o, ho, _, ⟨a, h1, h2, h3, rfl⟩, _, ⟨hb, rfl⟩, _, ⟨hb.trans this, rfl⟩, rfl⟩
  case updateMinter new =>
    obtain ⟨⟨cap, hm⟩, hv⟩ := h
    simp only [TokenState.book, Option.map_eq_some_iff] at hm
    obtain ⟨md, hm, he⟩ := hm
    cases md; cases he
    cases new with
    | none =>
      simp only [Token.execute, Token.updateMinter, bind_eq_ok, require_eq_ok, okOr_eq_ok]
      exact ⟨_, _, hm, (), rfl, rfl⟩
    | some a =>
      simp only [Token.execute, Token.updateMinter, bind_eq_ok, require_eq_ok, okOr_eq_ok]
      exact ⟨_, _, hm, (), rfl, a, hv a rfl, rfl⟩

private theorem facts {c : Chain} (hl : c.Lawful) {v : World} {f : Frame} (h : Happens c v f)
    {t : Addr} {k : Contract} (ht : v.contracts t = some k) : TokensOk v ∧ c.api.resolve t = .ok t := by
  obtain ⟨rest, h1, h2⟩ := h.all (P := fun v fs => TokensOk v ∧ Sane c v fs)
    (fun w s m hw hu => ⟨hw.tokensOk, hw.sane.start hu m⟩) (fun _ _ _ _ _ _ _ hp hs => ⟨hp.1.step hs, hp.2.step hs⟩)
  obtain ⟨n, _, e⟩ := h2.at_addr t k ht
  exact ⟨h1, by rw [e]; exact hl.resolve_addr n⟩

/-- C63: whoever calls a token, at whatever point of a transaction, succeeds exactly if the book says they may.
Whether a deadline already past may be granted depends on the version of cw20-base. -/
theorem C63_call_iff {c : Chain} (hl : c.Lawful) {v : World} {u t : Addr} {m : ExecMsg}
    (h : Happens c v (.msg u (plain (.exec t m []))))
    {adm : Option Addr} {s : TokenState} (ht : v.contracts t = some ⟨adm, .token s⟩) (hm : m.inRange = true)
    (adv : Adv) (n : Nat) :
    (∃ v' fs, step c adv n v (.msg u (plain (.exec t m []))) = .ok (v', fs)) ↔
      s.book.May c.api.Valid (Past v.block) (c.api.refusesPast = true) u m := by
  obtain ⟨hi, hr⟩ := facts hl h ht
  constructor
  · rintro ⟨v', fs, hs⟩
    obtain ⟨s', r, hx, _⟩ := tok_call hr ht (step_inv hs)
    exact (execute_book hx).1
  · intro hp
    obtain ⟨⟨s', r⟩, hx⟩ := execute_of_may (hi _ _ _ ht) hp
    exact ⟨_, _, step_token_of hr ht hm hx⟩

/-- C63: a call changes the token's book as specified and nothing else, and makes exactly the specified notification. -/
theorem C63_call_effect {c : Chain} (hl : c.Lawful) {v : World} {u t : Addr} {m : ExecMsg}
    (h : Happens c v (.msg u (plain (.exec t m []))))
    {adm : Option Addr} {s : TokenState} (ht : v.contracts t = some ⟨adm, .token s⟩) {adv : Adv} {n : Nat} {v' : World}
    {fs : List Frame} (hs : step c adv n v (.msg u (plain (.exec t m []))) = .ok (v', fs)) :
    ∃ s', v' = v.setState t adm (.token s') ∧ s'.book = s.book.after u m ∧
      (s'.name = s.name ∧ s'.symbol = s.symbol ∧ s'.decimals = s.decimals) ∧
      fs = (Book.notice u m).toList.map fun n => .msg t (plain (.exec n.1 (.receive n.2.1 n.2.2.1 n.2.2.2) [])) := by
  obtain ⟨_, hr⟩ := facts hl h ht
  obtain ⟨s', r, hx, rfl, rfl⟩ := tok_call hr ht (step_inv hs)
  obtain ⟨_, h2, h3, rfl⟩ := execute_book hx
  exact ⟨s', rfl, h2, h3, by simp [frames]⟩

/-- C63: a user's transaction that calls a token without notifying anybody succeeds exactly if the book says it may, whatever
third-party code exists. -/
theorem C63_tx_iff {c : Chain} (hl : c.Lawful) {w : World} (hw : Reachable c w) {u t : Addr} (hu : c.IsUser u)
    {adm : Option Addr} {s : TokenState} (ht : w.contracts t = some ⟨adm, .token s⟩) {m : ExecMsg} (hm : m.inRange = true)
    (hq : Book.notice u m = none) (adv : Adv) :
    (∃ gas w', runTx c adv gas w u (.exec t m []) = .ok w') ↔ s.book.May c.api.Valid (Past w.block) (c.api.refusesPast = true) u m := by
  have hc := Happens.start hw hu (.exec t m []) adv
  constructor
  · rintro ⟨gas, w', h⟩
    obtain ⟨n, h⟩ := runTx_inv h
    obtain ⟨k, v, fs, rfl, hs, _⟩ := run_cons_inv h
    exact (C63_call_iff hl hc ht hm adv k).mp ⟨v, fs, hs⟩
  · intro hp
    obtain ⟨v, fs, hs⟩ := (C63_call_iff hl hc ht hm adv 0).mpr hp
    obtain ⟨s', rfl, _, _, rfl⟩ := C63_call_effect hl hc ht hs
    refine ⟨1, w.setState t adm (.token s'), ?_⟩
    simp only [runTx, bind_eq_ok, pure_eq_ok, Prod.exists]
    refine ⟨0, _, run_cons_of hs ?_, rfl⟩
    simp [hq, run_nil]

/-- C63: and it changes the book as specified, and nothing else in the world. -/
theorem C63_tx_effect {c : Chain} (hl : c.Lawful) {w : World} (hw : Reachable c w) {u t : Addr} (hu : c.IsUser u)
    {adm : Option Addr} {s : TokenState} (ht : w.contracts t = some ⟨adm, .token s⟩) {m : ExecMsg}
    (hq : Book.notice u m = none) {adv : Adv} {gas : Nat} {w' : World} (h : runTx c adv gas w u (.exec t m []) = .ok w') :
    ∃ s', w'.contracts t = some ⟨adm, .token s'⟩ ∧ s'.book = s.book.after u m ∧
      (s'.name = s.name ∧ s'.symbol = s.symbol ∧ s'.decimals = s.decimals) ∧
      (∀ a, a ≠ t → w'.contracts a = w.contracts a) ∧ w'.bank = w.bank ∧ w'.next = w.next ∧ w'.block = w.block := by
  obtain ⟨n, h⟩ := runTx_inv h
  obtain ⟨k, v, fs, rfl, hs, hr⟩ := run_cons_inv h
  obtain ⟨s', rfl, h2, h3, rfl⟩ := C63_call_effect hl (Happens.start hw hu _ adv) ht hs
  simp only [hq, Option.toList_none, List.map_nil, List.append_nil, run_nil, Except.ok.injEq, Prod.mk.injEq] at hr
  obtain ⟨_, rfl⟩ := hr
  exact ⟨s', by simp [World.setState], h2, h3, fun a ha => by simp [World.setState, World.setContract, ha], rfl, rfl, rfl⟩

/-- C63: what a token answers is what its book says. -/
theorem C63_queries {c : Chain} (hl : c.Lawful) {w : World} (hw : Reachable c w) {t : Addr} {adm : Option Addr}
    {s : TokenState} (ht : w.contracts t = some ⟨adm, .token s⟩) (adv : Querier) :
    (∀ a, c.api.Valid a → (querier c adv w).tokenBalance t a = .ok (s.book.bal a)) ∧
    (querier c adv w).tokenInfo t = .ok ⟨s.name, s.symbol, s.decimals, s.book.supply⟩ ∧
    (∀ o sp, ((Token.queryAllowance s o sp).amount, (Token.queryAllowance s o sp).expires) =
      (s.book.allow o sp).getD (0, .never)) ∧
    (Token.queryMinter s).map (fun m => (m.minter, m.cap)) = s.book.minter := by
  have hi := hw.tokensOk _ _ _ ht
  have hr := (addr_facts hl hw ht).1
  have hlk : lookState c w t = .ok (.token s) := by
    simp only [lookState, bind_eq_ok, okOr_eq_ok, pure_eq_ok]
    exact ⟨t, hr, _, ht, rfl⟩
  refine ⟨fun a ha => ?_, ?_, fun o sp => ?_, rfl⟩
  · have := hi.le_supply a
    have := hi.fits
    simp only [querier, baseQuerier, hlk, bind_eq_ok, Except.ok.injEq, exists_eq_left', chk128, Token.queryBalance,
      require_eq_ok, pure_eq_ok]
    exact ⟨_, ⟨a, ha, rfl⟩, (), by omega, rfl⟩
  · have := hi.fits
    have := hi.decimals
    simp only [querier, baseQuerier, hlk, bind_eq_ok, Except.ok.injEq, exists_eq_left', chkTI, Token.queryTokenInfo,
      require_eq_ok, pure_eq_ok]
    exact ⟨(), by omega, rfl⟩
  · simp only [Token.queryAllowance, TokenState.book]
    cases s.allowances.get (o, sp) <;> rfl

/-! ## Concrete cases -/

namespace Demo

/-- In the deployed world `user` holds 40000 of token A, of a supply of 50000; the pair may still take 10000 of it. -/
private theorem a_book : ∃ adm s, deployed.contracts tA = some ⟨adm, .token s⟩ ∧ s.book.bal user = 40000 ∧
    s.book.supply = 50000 ∧ s.book.minter = some (user, some 90000) ∧ s.book.allow user pAB = some (10000, .never) ∧
    s.book.allow user user2 = none := by
  obtain ⟨adm, s, h1, h2⟩ := exists_token (w := deployed) (a := tA)
    (t := fun p => decide (p.2.balances.getD0 user = 40000 ∧ p.2.totalSupply = 50000 ∧
      p.2.mint = some ⟨user, some 90000⟩ ∧ p.2.allowances.get (user, pAB) = some ⟨10000, .never⟩ ∧
      p.2.allowances.get (user, user2) = none)) (by decide +kernel)
  simp only [decide_eq_true_eq] at h2
  obtain ⟨h2, h3, h4, h5, h6⟩ := h2
  exact ⟨adm, s, h1, h2, h3, by simp [TokenState.book, h4], by simp [TokenState.book, h5], by simp [TokenState.book, h6]⟩

/-- `user` can transfer 40000 and not 40001, mint 40000 more and not 40001. -/
example (adv : Adv) :
    (∃ gas w', runTx chain adv gas deployed user (.exec tA (.transfer user2 40000) []) = .ok w') ∧
    ¬ (∃ gas w', runTx chain adv gas deployed user (.exec tA (.transfer user2 40001) []) = .ok w') ∧
    (∃ gas w', runTx chain adv gas deployed user (.exec tA (.mint user2 40000) []) = .ok w') ∧
    ¬ (∃ gas w', runTx chain adv gas deployed user (.exec tA (.mint user2 40001) []) = .ok w') := by
  obtain ⟨adm, s, h1, hb, hs, hm, -, -⟩ := a_book
  refine ⟨(C63_tx_iff lawful deployed_reachable isUser_user h1 (by decide) rfl adv).mpr ?_,
    mt (C63_tx_iff lawful deployed_reachable isUser_user h1 (by decide) rfl adv).mp ?_,
    (C63_tx_iff lawful deployed_reachable isUser_user h1 (by decide) rfl adv).mpr ?_,
    mt (C63_tx_iff lawful deployed_reachable isUser_user h1 (by decide) rfl adv).mp ?_⟩
  · exact ⟨by decide, validate_any _, by rw [hb]⟩
  · rintro ⟨_, _, h⟩
    rw [hb] at h
    exact absurd h (by decide)
  · refine ⟨by decide, validate_any _, by rw [hs]; decide, some 90000, hm, fun k e => by cases e; rw [hs]⟩
  · rintro ⟨_, _, _, cap, h, h'⟩
    rw [hm] at h
    cases h
    have := h' _ rfl
    rw [hs] at this
    exact absurd this (by decide)

/-- Lowering the pair's allowance by its whole amount removes it; a new grant starts from nothing, with its own deadline. -/
example (adv : Adv) (gas : Nat) (w' : World)
    (h : runTx chain adv gas deployed user (.exec tA (.decreaseAllowance pAB 10000 none) []) = .ok w') :
    ∃ adm s', w'.contracts tA = some ⟨adm, .token s'⟩ ∧ s'.book.allow user pAB = none := by
  obtain ⟨adm, s, h1, hb, hs, hm, ha, -⟩ := a_book
  obtain ⟨s', h2, h3, -⟩ := C63_tx_effect lawful deployed_reachable isUser_user h1 rfl h
  exact ⟨adm, s', h2, by rw [h3]; simp [Book.after, ha]⟩

example (adv : Adv) (gas : Nat) (w' : World)
    (h : runTx chain adv gas deployed user (.exec tA (.increaseAllowance user2 7 (some (.atHeight 9))) []) = .ok w') :
    ∃ adm s', w'.contracts tA = some ⟨adm, .token s'⟩ ∧ s'.book.allow user user2 = some (7, .atHeight 9) ∧
      s'.book.allow user pAB = some (10000, .never) := by
  obtain ⟨adm, s, h1, hb, hs, hm, ha, hn⟩ := a_book
  obtain ⟨s', h2, h3, -⟩ := C63_tx_effect lawful deployed_reachable isUser_user h1 rfl h
  refine ⟨adm, s', h2, by rw [h3]; simp [Book.after, hn], ?_⟩
  rw [h3]
  have : pAB ≠ user2 := by decide
  simp [Book.after, this, ha]

/-- Whether a deadline already past can be granted depends on the version of cw20-base; a deadline to come can be granted in any. -/
example : let strict := { chain with api := { chain.api with refusesPast := true } }
    let past := CosmosMsg.exec tA (.increaseAllowance user2 7 (some (.atHeight 0))) []
    let future := CosmosMsg.exec tA (.increaseAllowance user2 7 (some (.atHeight (deployed.block.height + 1)))) []
    isOk (runTx chain idle 20 deployed user past) = true ∧ isOk (runTx strict idle 20 deployed user past) = false ∧
    isOk (runTx chain idle 20 deployed user future) = true ∧ isOk (runTx strict idle 20 deployed user future) = true := by
  decide +kernel

/-- Both transactions succeed. -/
example : isOk (runTx chain idle 20 deployed user (.exec tA (.decreaseAllowance pAB 10000 none) [])) = true ∧
    isOk (runTx chain idle 20 deployed user (.exec tA (.increaseAllowance user2 7 (some (.atHeight 9))) [])) = true := by
  decide +kernel

private def isTake : World × Frame → Bool
  | (_, .msg u m) => decide (u = pAB ∧ m = plain (.exec tA (.transferFrom user pAB 1000) []))
  | _ => false

/-- A call inside a transaction: during a deposit the pair takes the token from the depositor. -/
example : ∃ v, Happens chain v (.msg pAB (plain (.exec tA (.transferFrom user pAB 1000) []))) := by
  have h : (trace chain idle 20 deployed [.msg user (plain (.exec pAB
      (.provideLiquidity (⟨.token tA, 1000⟩, ⟨.token tB, 2000⟩) none none) []))]).any isTake = true := by decide +kernel
  obtain ⟨⟨v, f⟩, hm, hf⟩ := List.any_eq_true.mp h
  cases f with
  | reply => cases hf
  | msg u m =>
    simp only [isTake, decide_eq_true_eq] at hf
    obtain ⟨rfl, rfl⟩ := hf
    exact ⟨v, deployed, user, _, idle, 20, deployed_reachable, isUser_user, hm⟩

end Demo
end Halo
