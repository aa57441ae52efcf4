import Verif.Token
import Verif.Lemmas.PairInv
/-! # halo-token: what a successful call means (helper lemmas) -/

namespace Halo
namespace Token

/-- Balances after moving `x` from `src` to `dst`. -/
def moveBal (b : AMap Addr Nat) (src dst : Addr) (x : Nat) : AMap Addr Nat :=
  (b.set src (b.getD0 src - x)).set dst ((b.set src (b.getD0 src - x)).getD0 dst + x)

theorem moveBal_get (b : AMap Addr Nat) (src dst : Addr) (x : Nat) (a : Addr) :
    (moveBal b src dst x).getD0 a =
      if a = dst then (if a = src then b.getD0 a - x else b.getD0 a) + x
      else if a = src then b.getD0 a - x else b.getD0 a := by
  unfold moveBal
  simp only [AMap.getD0_set]
  by_cases h1 : a = dst
  · subst h1
    by_cases h2 : a = src
    · subst h2; simp
    · simp [h2]
  · by_cases h2 : a = src
    · subst h2; simp [h1]
    · simp [h1, h2]

theorem moveBal_total (b : AMap Addr Nat) (src dst : Addr) (x : Nat) (h : x ≤ b.getD0 src) :
    (moveBal b src dst x).total = b.total := by
  unfold moveBal
  have e1 := AMap.total_set (b.set src (b.getD0 src - x)) dst ((b.set src (b.getD0 src - x)).getD0 dst + x)
  have e2 := AMap.total_set b src (b.getD0 src - x)
  omega

theorem debit_eq_ok {st st' : TokenState} {a : Addr} {x : Nat} :
    debit st a x = .ok st' ↔ x ≤ st.balances.getD0 a ∧
      st' = { st with balances := st.balances.set a (st.balances.getD0 a - x) } := by
  unfold debit
  simp only [bind_eq_ok, Uint128.checkedSub_eq_ok, pure_eq_ok]
  constructor
  · rintro ⟨_, ⟨h1, rfl⟩, rfl⟩; exact ⟨h1, rfl⟩
  · rintro ⟨h1, rfl⟩; exact ⟨_, ⟨h1, rfl⟩, rfl⟩

theorem credit_eq_ok {st st' : TokenState} {a : Addr} {x : Nat} :
    credit st a x = .ok st' ↔ st.balances.getD0 a + x < B128 ∧
      st' = { st with balances := st.balances.set a (st.balances.getD0 a + x) } := by
  unfold credit
  simp only [bind_eq_ok, Uint128.add_eq_ok, pure_eq_ok]
  constructor
  · rintro ⟨_, ⟨h1, rfl⟩, rfl⟩; exact ⟨h1, rfl⟩
  · rintro ⟨h1, rfl⟩; exact ⟨_, ⟨h1, rfl⟩, rfl⟩

theorem deduct_eq_ok {blk : Block} {st st' : TokenState} {o s : Addr} {x : Nat} :
    deductAllowance blk st o s x = .ok st' ↔ ∃ a, st.allowances.get (o, s) = some a ∧
      a.expires.isExpired blk = false ∧ x ≤ a.amount ∧
      st' = { st with allowances := st.allowances.set (o, s) ⟨a.amount - x, a.expires⟩ } := by
  unfold deductAllowance
  split
  · rename_i a ha
    simp only [bind_eq_ok, require_eq_ok, Uint128.checkedSub_eq_ok, pure_eq_ok, ha, Option.some.injEq,
      exists_eq_left']
    constructor
    · rintro ⟨_, h1, _, ⟨h2, rfl⟩, rfl⟩; exact ⟨h1, h2, rfl⟩
    · rintro ⟨h1, h2, rfl⟩; exact ⟨(), h1, _, ⟨h2, rfl⟩, rfl⟩
  · rename_i ha
    simp [ha]

/-- Every way a token message can succeed. -/
inductive Eff (api : Api) (blk : Block) (s : TokenState) (sender : Addr) :
    ExecMsg → TokenState → Response → Prop where
  | transfer (dst : Str) (x : Nat) (hx : x ≠ 0) (hv : api.validate dst = .ok dst)
      (hb : x ≤ s.balances.getD0 sender) (hf : (moveBal s.balances sender dst x).getD0 dst < B128) :
      Eff api blk s sender (.transfer dst x) { s with balances := moveBal s.balances sender dst x } {}
  | burn (x : Nat) (hx : x ≠ 0) (hb : x ≤ s.balances.getD0 sender) (hs : x ≤ s.totalSupply) :
      Eff api blk s sender (.burn x)
        { s with balances := s.balances.set sender (s.balances.getD0 sender - x), totalSupply := s.totalSupply - x } {}
  | send (dst : Str) (x : Nat) (m : HookMsg) (hx : x ≠ 0) (hv : api.validate dst = .ok dst)
      (hb : x ≤ s.balances.getD0 sender) (hf : (moveBal s.balances sender dst x).getD0 dst < B128) :
      Eff api blk s sender (.send dst x m) { s with balances := moveBal s.balances sender dst x }
        { messages := [plain (.exec dst (.receive sender x m) [])] }
  | mint (dst : Str) (x : Nat) (md : MinterData) (hx : x ≠ 0) (hv : api.validate dst = .ok dst)
      (hm : s.mint = some md) (hs : md.minter = sender) (hf : s.totalSupply + x < B128)
      (hcap : ∀ k, md.cap = some k → s.totalSupply + x ≤ k) (hb : s.balances.getD0 dst + x < B128) :
      Eff api blk s sender (.mint dst x)
        { s with balances := s.balances.set dst (s.balances.getD0 dst + x), totalSupply := s.totalSupply + x } {}
  | increase (sp : Str) (x : Nat) (e : Option Expiration) (a : Allowance) (hv : api.validate sp = .ok sp)
      (hne : sp ≠ sender) :
      Eff api blk s sender (.increaseAllowance sp x e) { s with allowances := s.allowances.set (sender, sp) a } {}
  | decrease (sp : Str) (x : Nat) (e : Option Expiration) (a : Allowance) (hv : api.validate sp = .ok sp)
      (hne : sp ≠ sender) :
      Eff api blk s sender (.decreaseAllowance sp x e) { s with allowances := s.allowances.set (sender, sp) a } {}
  | decreaseZero (sp : Str) (x : Nat) (e : Option Expiration) (hv : api.validate sp = .ok sp) (hne : sp ≠ sender) :
      Eff api blk s sender (.decreaseAllowance sp x e) { s with allowances := s.allowances.erase (sender, sp) } {}
  | transferFrom (o dst : Str) (x : Nat) (a : Allowance) (hv : api.validate dst = .ok dst)
      (ho : api.validate o = .ok o) (ha : s.allowances.get (o, sender) = some a)
      (he : a.expires.isExpired blk = false) (hle : x ≤ a.amount)
      (hb : x ≤ s.balances.getD0 o) (hf : (moveBal s.balances o dst x).getD0 dst < B128) :
      Eff api blk s sender (.transferFrom o dst x)
        { s with balances := moveBal s.balances o dst x,
                 allowances := s.allowances.set (o, sender) ⟨a.amount - x, a.expires⟩ } {}
  | burnFrom (o : Str) (x : Nat) (a : Allowance) (ho : api.validate o = .ok o)
      (ha : s.allowances.get (o, sender) = some a)
      (he : a.expires.isExpired blk = false) (hle : x ≤ a.amount)
      (hb : x ≤ s.balances.getD0 o) (hs : x ≤ s.totalSupply) :
      Eff api blk s sender (.burnFrom o x)
        { s with balances := s.balances.set o (s.balances.getD0 o - x), totalSupply := s.totalSupply - x,
                 allowances := s.allowances.set (o, sender) ⟨a.amount - x, a.expires⟩ } {}
  | sendFrom (o dst : Str) (x : Nat) (m : HookMsg) (a : Allowance) (hv : api.validate dst = .ok dst)
      (ho : api.validate o = .ok o) (ha : s.allowances.get (o, sender) = some a)
      (he : a.expires.isExpired blk = false) (hle : x ≤ a.amount)
      (hb : x ≤ s.balances.getD0 o) (hf : (moveBal s.balances o dst x).getD0 dst < B128) :
      Eff api blk s sender (.sendFrom o dst x m)
        { s with balances := moveBal s.balances o dst x,
                 allowances := s.allowances.set (o, sender) ⟨a.amount - x, a.expires⟩ }
        { messages := [plain (.exec dst (.receive sender x m) [])] }
  | renounce (md : MinterData) (hm : s.mint = some md) (hs : md.minter = sender) :
      Eff api blk s sender (.updateMinter none) { s with mint := none } {}
  | newMinter (a : Str) (md : MinterData) (hm : s.mint = some md) (hs : md.minter = sender)
      (hv : api.validate a = .ok a) :
      Eff api blk s sender (.updateMinter (some a)) { s with mint := some ⟨a, md.cap⟩ } {}

theorem validate_self {api : Api} {s a : Str} (h : api.validate s = .ok a) : a = s ∧ api.validate s = .ok s := by
  have := (validate_eq_ok.mp h).1
  subst this
  exact ⟨rfl, h⟩

theorem execute_inv {api : Api} {blk : Block} {s s' : TokenState} {sender : Addr} {m : ExecMsg} {r : Response}
    (h : execute api blk s sender m = .ok (s', r)) : Eff api blk s sender m s' r := by
  cases m with
  | transfer dst x =>
    simp only [execute, transfer, bind_eq_ok, require_eq_ok, debit_eq_ok, credit_eq_ok, pure_eq_ok, Prod.mk.injEq] at h
    obtain ⟨_, h1, _, h2, _, ⟨h3, rfl⟩, _, ⟨h4, rfl⟩, rfl, rfl⟩ := h
    obtain ⟨rfl, h2⟩ := validate_self h2
    refine .transfer _ _ h1 h2 h3 ?_
    simpa [moveBal, AMap.getD0_set] using h4
  | burn x =>
    simp only [execute, burn, bind_eq_ok, require_eq_ok, debit_eq_ok, Uint128.checkedSub_eq_ok, pure_eq_ok,
      Prod.mk.injEq] at h
    obtain ⟨_, h1, _, ⟨h3, rfl⟩, _, ⟨h4, rfl⟩, rfl, rfl⟩ := h
    exact .burn _ h1 h3 h4
  | send dst x hm =>
    simp only [execute, send, bind_eq_ok, require_eq_ok, debit_eq_ok, credit_eq_ok, pure_eq_ok, Prod.mk.injEq] at h
    obtain ⟨_, h1, _, h2, _, ⟨h3, rfl⟩, _, ⟨h4, rfl⟩, rfl, rfl⟩ := h
    obtain ⟨rfl, h2⟩ := validate_self h2
    refine .send _ _ _ h1 h2 h3 ?_
    simpa [moveBal, AMap.getD0_set] using h4
  | mint dst x =>
    simp only [execute, mint, bind_eq_ok, require_eq_ok, okOr_eq_ok, Uint128.add_eq_ok, getCap] at h
    obtain ⟨_, h1, md, h2, _, h3, _, ⟨h4, rfl⟩, h5⟩ := h
    have h6 : (∀ k, md.cap = some k → s.totalSupply + x ≤ k) ∧ api.validate dst = .ok dst ∧
        s.balances.getD0 dst + x < B128 ∧
        s' = { s with balances := s.balances.set dst (s.balances.getD0 dst + x), totalSupply := s.totalSupply + x } ∧
        r = {} := by
      rw [h2] at h5
      simp only [Option.bind_some] at h5
      split at h5
      · rename_i k hk
        simp only [bind_eq_ok, require_eq_ok, credit_eq_ok, pure_eq_ok, Prod.mk.injEq] at h5
        obtain ⟨_, h6, _, h7, _, ⟨h8, rfl⟩, rfl, rfl⟩ := h5
        obtain ⟨rfl, h7⟩ := validate_self h7
        refine ⟨?_, h7, h8, by simp [h2], rfl⟩
        intro k' hk'
        rw [hk] at hk'
        cases hk'
        omega
      · rename_i hk
        simp only [bind_eq_ok, credit_eq_ok, pure_eq_ok, Prod.mk.injEq] at h5
        obtain ⟨_, _, _, h7, _, ⟨h8, rfl⟩, rfl, rfl⟩ := h5
        obtain ⟨rfl, h7⟩ := validate_self h7
        exact ⟨by simp [hk], h7, h8, by simp [h2], rfl⟩
    obtain ⟨h6, h7, h8, rfl, rfl⟩ := h6
    exact .mint _ _ md h1 h7 h2 h3 h4 h6 h8
  | increaseAllowance sp x e =>
    simp only [execute, increaseAllowance, bind_eq_ok, require_eq_ok, pure_eq_ok, Prod.mk.injEq] at h
    obtain ⟨_, h1, _, h2, _, _, _, _, rfl, rfl⟩ := h
    obtain ⟨rfl, h1⟩ := validate_self h1
    exact .increase _ _ _ _ h1 h2
  | decreaseAllowance sp x e =>
    simp only [execute, decreaseAllowance, bind_eq_ok, require_eq_ok] at h
    obtain ⟨_, h1, _, h2, cur, _, h⟩ := h
    obtain ⟨rfl, h1⟩ := validate_self h1
    split at h
    · simp only [bind_eq_ok, pure_eq_ok, Prod.mk.injEq] at h
      obtain ⟨_, _, _, _, rfl, rfl⟩ := h
      exact .decrease _ _ _ _ h1 h2
    · simp only [pure_eq_ok, Prod.mk.injEq] at h
      obtain ⟨rfl, rfl⟩ := h
      exact .decreaseZero _ _ _ h1 h2
  | transferFrom o dst x =>
    simp only [execute, transferFrom, bind_eq_ok, debit_eq_ok, credit_eq_ok, deduct_eq_ok, pure_eq_ok,
      Prod.mk.injEq] at h
    obtain ⟨_, h1, _, h2, _, ⟨a, h3, h4, h5, rfl⟩, _, ⟨h6, rfl⟩, _, ⟨h7, rfl⟩, rfl, rfl⟩ := h
    obtain ⟨rfl, h1⟩ := validate_self h1
    obtain ⟨rfl, h2⟩ := validate_self h2
    refine .transferFrom _ _ _ a h1 h2 h3 h4 h5 h6 ?_
    simpa [moveBal, AMap.getD0_set] using h7
  | sendFrom o dst x hm =>
    simp only [execute, sendFrom, bind_eq_ok, debit_eq_ok, credit_eq_ok, deduct_eq_ok, pure_eq_ok,
      Prod.mk.injEq] at h
    obtain ⟨_, h1, _, h2, _, ⟨a, h3, h4, h5, rfl⟩, _, ⟨h6, rfl⟩, _, ⟨h7, rfl⟩, rfl, rfl⟩ := h
    obtain ⟨rfl, h1⟩ := validate_self h1
    obtain ⟨rfl, h2⟩ := validate_self h2
    refine .sendFrom _ _ _ _ a h1 h2 h3 h4 h5 h6 ?_
    simpa [moveBal, AMap.getD0_set] using h7
  | burnFrom o x =>
    simp only [execute, burnFrom, bind_eq_ok, debit_eq_ok, Uint128.checkedSub_eq_ok, deduct_eq_ok, pure_eq_ok,
      Prod.mk.injEq] at h
    obtain ⟨_, h2, _, ⟨a, h3, h4, h5, rfl⟩, _, ⟨h6, rfl⟩, _, ⟨h7, rfl⟩, rfl, rfl⟩ := h
    obtain ⟨rfl, h2⟩ := validate_self h2
    exact .burnFrom _ _ a h2 h3 h4 h5 h6 h7
  | updateMinter nm =>
    simp only [execute, updateMinter, bind_eq_ok, require_eq_ok, okOr_eq_ok] at h
    obtain ⟨md, h1, _, h2, h⟩ := h
    cases nm with
    | none =>
      simp only [pure_eq_ok, Prod.mk.injEq] at h
      obtain ⟨rfl, rfl⟩ := h
      exact .renounce md h1 h2
    | some a =>
      simp only [bind_eq_ok, pure_eq_ok, Prod.mk.injEq] at h
      obtain ⟨_, h3, rfl, rfl⟩ := h
      obtain ⟨rfl, h3⟩ := validate_self h3
      exact .newMinter _ md h1 h2 h3
  | _ => simp [execute] at h

end Token
end Halo
