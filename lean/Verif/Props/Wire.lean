import Verif.Spec.Wire
import Verif.Spec.Steps
import Verif.Lemmas.TraceL
import Verif.Lemmas.Sane
import Verif.Lemmas.RegistryL
import Verif.Lemmas.RouterL
import Verif.Props.Steps
/-! # Every number fits its type (C82) -/

namespace Halo

open _root_.Halo.Spec

namespace Wire

theorem fitsAll_nil : FitsAll [] := fun _ h => nomatch h

theorem fitsAll_append {l l' : List (Nat × Nat)} : FitsAll (l ++ l') ↔ FitsAll l ∧ FitsAll l' := by
  unfold FitsAll
  constructor
  · exact fun h => ⟨fun e he => h e (List.mem_append_left _ he), fun e he => h e (List.mem_append_right _ he)⟩
  · rintro ⟨h1, h2⟩ e he
    rcases List.mem_append.mp he with he | he
    exacts [h1 e he, h2 e he]

theorem fitsAll_cons {e : Nat × Nat} {l : List (Nat × Nat)} : FitsAll (e :: l) ↔ e.2 < 2 ^ e.1 ∧ FitsAll l := by
  unfold FitsAll
  simp

theorem fitsAll_map {α : Type} {l : List α} {b : Nat} {g : α → Nat} :
    FitsAll (l.map fun e => (b, g e)) ↔ ∀ e ∈ l, g e < 2 ^ b := by
  unfold FitsAll
  simp

theorem fitsAll_flatMap {α : Type} {l : List α} {g : α → List (Nat × Nat)} :
    FitsAll (l.flatMap g) ↔ ∀ e ∈ l, FitsAll (g e) := by
  unfold FitsAll
  simp only [List.mem_flatMap]
  constructor
  · exact fun h e he x hx => h x ⟨e, he, hx⟩
  · rintro h x ⟨e, he, hx⟩; exact h e he x hx

theorem fitsAll_opt128 {o : Option Nat} : FitsAll (opt128 o) ↔ optLt B128 o = true := by
  cases o <;> simp [opt128, FitsAll, optLt, B128]

theorem fitsAll_opt64 {o : Option Nat} : FitsAll (opt64 o) ↔ optLt B64 o = true := by
  cases o <;> simp [opt64, FitsAll, optLt, B64]

theorem fitsAll_req {r : Requirements} : FitsAll (reqNumbers r) ↔ r.inRange = true := by
  simp [reqNumbers, fitsAll_cons, fitsAll_nil, Requirements.inRange, B128]

theorem hook_fits {m : HookMsg} : FitsAll (hookNumbers m) ↔ m.inRange = true := by
  cases m <;> simp [hookNumbers, HookMsg.inRange, fitsAll_append, fitsAll_opt128, fitsAll_nil]

/-- What the host accepts, in the words of the specification. -/
theorem expiry_range {e : Expiration} : FitsAll (expiryNumbers e) ↔ e.inRange = true := by
  cases e <;> simp [expiryNumbers, Expiration.inRange, fitsAll_cons, fitsAll_nil, B64]

theorem expiry_all {o : Option Expiration} : FitsAll (o.toList.flatMap expiryNumbers) ↔ o.all Expiration.inRange = true := by
  cases o with
  | none => simp [fitsAll_nil]
  | some e => simpa using expiry_range

theorem exec_fits {m : ExecMsg} (h : m.inRange = true) (hb : ∀ b x d, m ≠ .swapDirect b x d) :
    FitsAll (execNumbers m) ∧ FitsAll (payloadNumbers m) ∧ FitsAll ((expiryOf m).toList.flatMap expiryNumbers) := by
  rw [expiry_all]
  cases m <;> simp_all [execNumbers, expiryOf, payloadNumbers, ExecMsg.inRange, fitsAll_append, fitsAll_cons, fitsAll_nil, fitsAll_opt128,
    fitsAll_opt64, fitsAll_req, hook_fits, B128]

theorem inst_fits {m : InstMsg} : FitsAll (instNumbers m) ↔ m.inRange = true := by
  cases m with
  | token m =>
    simp only [instNumbers, InstMsg.inRange, fitsAll_append, List.cons_append, fitsAll_cons, fitsAll_map, fitsAll_opt128]
    cases hm : m.mint <;> simp [optLt, B128, and_assoc]
  | _ => simp [instNumbers, InstMsg.inRange, fitsAll_cons, fitsAll_nil, fitsAll_req, B64, and_assoc]

theorem toU128_lt {n v : Nat} (h : Uint256.toU128 n = .ok v) : v < B128 := by
  unfold Uint256.toU128 at h
  simp only [bind_eq_ok, U256.limb, pure_eq_ok, Nat.shiftLeft_eq] at h
  norm_num at *
  omega

theorem computeSwap_lt {o a x r s k : Nat} (h : Pair.computeSwap o a x = .ok (r, s, k)) : r < B128 := by
  unfold Pair.computeSwap at h
  simp only [bind_eq_ok, pure_eq_ok, Prod.mk.injEq] at h
  obtain ⟨_, _, _, _, _, _, _, _, _, _, _, _, _, _, _, _, _, _, _, _, _, _, _, _, r', h, _, _, _, _, rfl, _⟩ := h
  exact toU128_lt h

theorem shareFor_lt {req : Requirements} {sender : Addr} {S : Nat} {d p : Nat × Nat} {v : Nat}
    (h : Pair.shareFor req sender S d p = .ok v) : v < B128 := by
  unfold Pair.shareFor at h
  split at h
  · simp only [bind_eq_ok, require_eq_ok, Uint128.mulChk_eq_ok, pure_eq_ok, Uint128.isqrt] at h
    obtain ⟨_, _, _, _, _, ⟨h, rfl⟩, rfl⟩ := h
    exact lt_of_le_of_lt (Nat.sqrt_le_self _) h
  · simp only [bind_eq_ok, Uint128.multiplyRatio_eq_ok, pure_eq_ok] at h
    obtain ⟨_, ⟨_, h, rfl⟩, _, _, rfl⟩ := h
    exact lt_of_le_of_lt (min_le_left _ _) h

theorem chk128_lt {r : R Nat} {v : Nat} (h : chk128 r = .ok v) : v < B128 := by
  simp only [chk128, bind_eq_ok, require_eq_ok, pure_eq_ok] at h
  obtain ⟨_, _, _, h, rfl⟩ := h
  exact h

theorem chk8_lt {r : R Nat} {v : Nat} (h : chk8 r = .ok v) : v < 256 := by
  simp only [chk8, bind_eq_ok, require_eq_ok, pure_eq_ok] at h
  obtain ⟨_, _, _, h, rfl⟩ := h
  exact h

section
variable {c : Chain} {q : Querier} {w : World}

theorem balance_lt {a : Addr} {d : Denom} {v : Nat} (h : (querier c q w).balance a d = .ok v) : v < B128 := chk128_lt h

theorem tokenBalance_lt {t a : Str} {v : Nat} (h : (querier c q w).tokenBalance t a = .ok v) : v < B128 := by
  simp only [querier, baseQuerier, bind_eq_ok] at h
  obtain ⟨s, _, h⟩ := h
  split at h
  · exact chk128_lt h
  · exact chk128_lt h
  · cases h

theorem queryPool_lt {i : AssetInfo} {a : Addr} {v : Nat} (h : i.queryPool (querier c q w) c.api a = .ok v) : v < B128 := by
  cases i with
  | native d => exact balance_lt h
  | token t =>
    simp only [AssetInfo.queryPool, bind_eq_ok] at h
    obtain ⟨_, _, h⟩ := h
    exact tokenBalance_lt h

theorem queryDecimals_lt {i : AssetInfo} {a : Addr} {v : Nat} (h : i.queryDecimals (querier c q w) a = .ok v) : v < 256 := by
  cases i with
  | native d =>
    simp only [AssetInfo.queryDecimals, querier, baseQuerier, bind_eq_ok] at h
    obtain ⟨s, _, h⟩ := h
    split at h
    · exact chk8_lt h
    · exact chk8_lt h
    · cases h
  | token t =>
    simp only [AssetInfo.queryDecimals, querier, baseQuerier, bind_eq_ok, pure_eq_ok] at h
    obtain ⟨ti, ⟨s, _, h⟩, rfl⟩ := h
    split at h <;> simp only [chkTI, bind_eq_ok, require_eq_ok, pure_eq_ok, reduceCtorEq] at h
    · obtain ⟨_, _, _, ⟨_, h⟩, rfl⟩ := h; exact h
    · obtain ⟨_, _, _, ⟨_, h⟩, rfl⟩ := h; exact h

theorem pairInfoFromPair_req {p : Str} {i : PairInfo} (h : (querier c q w).pairInfoFromPair p = .ok i) :
    i.requirements.inRange = true := by
  simp only [querier, baseQuerier, bind_eq_ok] at h
  obtain ⟨s, _, h⟩ := h
  split at h <;> simp only [chkPI, bind_eq_ok, require_eq_ok, pure_eq_ok, reduceCtorEq] at h
  · obtain ⟨_, _, _, ⟨_, _, h⟩, rfl⟩ := h; exact h
  · obtain ⟨_, _, _, ⟨_, _, h⟩, rfl⟩ := h; exact h

end

theorem mem_set {K V : Type} [DecidableEq K] {m : AMap K V} {k : K} {v : V} {e : K × V} (h : e ∈ m.set k v) : e = (k, v) ∨ e ∈ m := by
  induction m with
  | nil => exact .inl (List.mem_singleton.mp h)
  | cons x t ih =>
    obtain ⟨k', v'⟩ := x
    simp only [AMap.set] at h
    split at h
    · rcases List.mem_cons.mp h with h | h
      exacts [.inl h, .inr (List.mem_cons_of_mem _ h)]
    · rcases List.mem_cons.mp h with h | h
      · exact .inr (h ▸ List.mem_cons_self)
      · rcases ih h with h | h
        exacts [.inl h, .inr (List.mem_cons_of_mem _ h)]

/-- The token part, spelled out. -/
structure Tok (s : TokenState) : Prop where
  dec : s.decimals < 256
  sup : s.totalSupply < B128
  cap : optLt B128 (s.mint.bind (·.cap)) = true
  bal : ∀ e ∈ s.balances, e.2 < B128
  all : ∀ e ∈ s.allowances, e.2.amount < B128
  exp : ∀ e ∈ s.allowances, e.2.expires.inRange = true

theorem tok_iff {s : TokenState} : FitsAll (storedNumbers (.token s)) ↔ Tok s := by
  simp only [storedNumbers, fitsAll_append, fitsAll_cons, fitsAll_map, fitsAll_opt128, fitsAll_nil, and_true, fitsAll_flatMap, expiry_range]
  constructor
  · rintro ⟨⟨⟨⟨⟨h1, h2⟩, h3⟩, h4⟩, h5⟩, h6⟩
    exact ⟨h1, h2, h3, h4, h5, h6⟩
  · rintro ⟨h1, h2, h3, h4, h5, h6⟩
    exact ⟨⟨⟨⟨⟨h1, h2⟩, h3⟩, h4⟩, h5⟩, h6⟩

theorem getD_range {x : Nat} {o : Option Expiration} {d : Expiration} (h : (decide (x < B128) && o.all Expiration.inRange) = true) (hd : d.inRange = true) :
    (o.getD d).inRange = true := by
  cases o with
  | none => exact hd
  | some e => exact (Bool.and_eq_true _ _ ▸ h).2

theorem Tok.getD0 {s : TokenState} (h : Tok s) (a : Addr) : s.balances.getD0 a < B128 := by
  unfold AMap.getD0
  cases hg : AMap.get s.balances a with
  | none => norm_num [B128]
  | some v => exact h.bal _ (get_mem hg)

theorem Tok.setBal {s : TokenState} (h : Tok s) {a : Addr} {v : Nat} (hv : v < B128) :
    Tok { s with balances := s.balances.set a v } :=
  ⟨h.dec, h.sup, h.cap, fun e he => by rcases mem_set he with rfl | he; exacts [hv, h.bal e he], h.all, h.exp⟩

theorem Tok.setAll {s : TokenState} (h : Tok s) {a : Addr × Addr} {v : Allowance} (hv : v.amount < B128)
    (he : v.expires.inRange = true) : Tok { s with allowances := s.allowances.set a v } :=
  ⟨h.dec, h.sup, h.cap, h.bal, fun e he => by rcases mem_set he with rfl | he; exacts [hv, h.all e he],
    fun e h' => by rcases mem_set h' with rfl | h'; exacts [he, h.exp e h']⟩

theorem Tok.debit {s s' : TokenState} (h : Tok s) {a : Addr} {x : Nat} (hd : Token.debit s a x = .ok s') : Tok s' := by
  simp only [Token.debit, bind_eq_ok, Uint128.checkedSub_eq_ok, pure_eq_ok] at hd
  obtain ⟨_, ⟨_, rfl⟩, rfl⟩ := hd
  exact h.setBal (lt_of_le_of_lt (Nat.sub_le _ _) (h.getD0 a))

theorem Tok.credit {s s' : TokenState} (h : Tok s) {a : Addr} {x : Nat} (hd : Token.credit s a x = .ok s') : Tok s' := by
  simp only [Token.credit, bind_eq_ok, Uint128.add_eq_ok, pure_eq_ok] at hd
  obtain ⟨_, ⟨hb, rfl⟩, rfl⟩ := hd
  exact h.setBal hb

theorem Tok.deduct {blk : Block} {s s' : TokenState} (h : Tok s) {a b : Addr} {x : Nat}
    (hd : Token.deductAllowance blk s a b x = .ok s') : Tok s' := by
  unfold Token.deductAllowance at hd
  split at hd
  · rename_i al hg
    simp only [bind_eq_ok, Uint128.checkedSub_eq_ok, pure_eq_ok] at hd
    obtain ⟨_, _, _, ⟨_, rfl⟩, rfl⟩ := hd
    exact h.setAll (lt_of_le_of_lt (Nat.sub_le _ _) (h.all _ (get_mem hg))) (h.exp _ (get_mem hg))
  · cases hd

/-- A token's messages carry the amount it was asked to move. -/
theorem Tok.execute {api : Api} {blk : Block} {s s' : TokenState} {sender : Addr} {m : ExecMsg} {r : Response} (h : Tok s)
    (hr : m.inRange = true) (hx : Token.execute api blk s sender m = .ok (s', r)) :
    Tok s' ∧ ∀ sm ∈ r.messages, FitsAll (msgNumbers sm.msg) := by
  cases m with
  | transfer d x =>
    simp only [Token.execute, Token.transfer, bind_eq_ok, pure_eq_ok, Prod.mk.injEq] at hx
    obtain ⟨_, _, _, _, _, h1, _, h2, rfl, rfl⟩ := hx
    exact ⟨(h.debit h1).credit h2, fun _ h => nomatch h⟩
  | burn x =>
    simp only [Token.execute, Token.burn, bind_eq_ok, pure_eq_ok, Prod.mk.injEq, Uint128.checkedSub_eq_ok] at hx
    obtain ⟨_, _, _, h1, _, ⟨_, rfl⟩, rfl, rfl⟩ := hx
    have h2 := h.debit h1
    exact ⟨⟨h2.dec, lt_of_le_of_lt (Nat.sub_le _ _) h2.sup, h2.cap, h2.bal, h2.all, h2.exp⟩, fun _ h => nomatch h⟩
  | send d x p =>
    simp only [Token.execute, Token.send, bind_eq_ok, pure_eq_ok, Prod.mk.injEq] at hx
    obtain ⟨_, _, _, _, _, h1, _, h2, rfl, rfl⟩ := hx
    refine ⟨(h.debit h1).credit h2, fun sm hsm => ?_⟩
    rw [List.mem_singleton.mp hsm]
    simp only [plain, msgNumbers, execNumbers, coinNumbers, List.map_nil, List.append_nil, fitsAll_cons, fitsAll_nil, and_true]
    exact of_decide_eq_true hr
  | mint d x =>
    simp only [Token.execute, Token.mint, bind_eq_ok, okOr_eq_ok, Uint128.add_eq_ok] at hx
    obtain ⟨_, _, md, hmd, _, _, t, ⟨ht, rfl⟩, hx⟩ := hx
    have key : ∀ {v}, (do let rcpt ← api.validate d
                          let st ← Token.credit { s with totalSupply := s.totalSupply + x } rcpt x
                          return (st, ({} : Response)) : R (TokenState × Response)) = .ok v → v = (s', r) →
        Tok s' ∧ ∀ sm ∈ r.messages, FitsAll (msgNumbers sm.msg) := by
      intro v hv hv'
      subst hv'
      simp only [bind_eq_ok, pure_eq_ok, Prod.mk.injEq] at hv
      obtain ⟨_, _, _, h2, rfl, rfl⟩ := hv
      exact ⟨Tok.credit (s := { s with totalSupply := s.totalSupply + x }) ⟨h.dec, ht, h.cap, h.bal, h.all, h.exp⟩ h2,
        fun _ h => nomatch h⟩
    split at hx
    · simp only [bind_eq_ok] at hx
      obtain ⟨_, _, hx⟩ := hx
      exact key (by simpa only [bind_eq_ok] using hx) rfl
    · simp only [ok_bind] at hx
      exact key hx rfl
  | increaseAllowance sp x e =>
    simp only [Token.execute, Token.increaseAllowance, bind_eq_ok, pure_eq_ok, Prod.mk.injEq, Uint128.add_eq_ok] at hx
    obtain ⟨_, _, _, _, _, _, _, ⟨hb, rfl⟩, rfl, rfl⟩ := hx
    refine ⟨h.setAll hb (getD_range hr ?_), fun _ h => nomatch h⟩
    cases hg : AMap.get s.allowances (sender, _) with
    | none => rfl
    | some al => exact h.exp _ (get_mem hg)
  | decreaseAllowance sp x e =>
    simp only [Token.execute, Token.decreaseAllowance, bind_eq_ok, okOr_eq_ok] at hx
    obtain ⟨_, _, _, _, cur, hg, hx⟩ := hx
    split at hx
    · simp only [bind_eq_ok, pure_eq_ok, Prod.mk.injEq, Uint128.checkedSub_eq_ok] at hx
      obtain ⟨_, ⟨_, rfl⟩, _, _, rfl, rfl⟩ := hx
      exact ⟨h.setAll (lt_of_le_of_lt (Nat.sub_le _ _) (h.all _ (get_mem hg))) (getD_range hr
        (h.exp _ (get_mem hg))), fun _ h => nomatch h⟩
    · simp only [pure_eq_ok, Prod.mk.injEq] at hx
      obtain ⟨rfl, rfl⟩ := hx
      exact ⟨⟨h.dec, h.sup, h.cap, h.bal, fun e he => h.all e (List.mem_of_mem_filter he), fun e he => h.exp e (List.mem_of_mem_filter he)⟩, fun _ h => nomatch h⟩
  | transferFrom o d x =>
    simp only [Token.execute, Token.transferFrom, bind_eq_ok, pure_eq_ok, Prod.mk.injEq] at hx
    obtain ⟨_, _, _, _, _, h0, _, h1, _, h2, rfl, rfl⟩ := hx
    exact ⟨((h.deduct h0).debit h1).credit h2, fun _ h => nomatch h⟩
  | burnFrom o x =>
    simp only [Token.execute, Token.burnFrom, bind_eq_ok, pure_eq_ok, Prod.mk.injEq, Uint128.checkedSub_eq_ok] at hx
    obtain ⟨_, _, _, h0, _, h1, _, ⟨_, rfl⟩, rfl, rfl⟩ := hx
    have h2 := (h.deduct h0).debit h1
    exact ⟨⟨h2.dec, lt_of_le_of_lt (Nat.sub_le _ _) h2.sup, h2.cap, h2.bal, h2.all, h2.exp⟩, fun _ h => nomatch h⟩
  | sendFrom o d x p =>
    simp only [Token.execute, Token.sendFrom, bind_eq_ok, pure_eq_ok, Prod.mk.injEq] at hx
    obtain ⟨_, _, _, _, _, h0, _, h1, _, h2, rfl, rfl⟩ := hx
    refine ⟨((h.deduct h0).debit h1).credit h2, fun sm hsm => ?_⟩
    rw [List.mem_singleton.mp hsm]
    simp only [plain, msgNumbers, execNumbers, coinNumbers, List.map_nil, List.append_nil, fitsAll_cons, fitsAll_nil, and_true]
    exact of_decide_eq_true hr
  | updateMinter o =>
    simp only [Token.execute, Token.updateMinter, bind_eq_ok, okOr_eq_ok] at hx
    obtain ⟨md, hmd, _, _, hx⟩ := hx
    have hcap := h.cap
    rw [hmd] at hcap
    split at hx
    · simp only [pure_eq_ok, Prod.mk.injEq] at hx
      obtain ⟨rfl, rfl⟩ := hx
      exact ⟨⟨h.dec, h.sup, rfl, h.bal, h.all, h.exp⟩, fun _ h => nomatch h⟩
    · simp only [bind_eq_ok, pure_eq_ok, Prod.mk.injEq] at hx
      obtain ⟨_, _, rfl, rfl⟩ := hx
      exact ⟨⟨h.dec, h.sup, hcap, h.bal, h.all, h.exp⟩, fun _ h => nomatch h⟩
  | _ => cases hx

theorem createLoop_fits {api : Api} : ∀ {l : List (Str × Nat)} {b b' : AMap Addr Nat} {t t' : Nat}, (∀ e ∈ l, e.2 < B128) →
    (∀ e ∈ b, e.2 < B128) → t < B128 → Token.createLoop api l b t = .ok (b', t') → (∀ e ∈ b', e.2 < B128) ∧ t' < B128 := by
  intro l
  induction l with
  | nil => intro b b' t t' _ hb ht h; cases h; exact ⟨hb, ht⟩
  | cons e l ih =>
    intro b b' t t' hl hb ht h
    obtain ⟨a, x⟩ := e
    simp only [Token.createLoop, bind_eq_ok, Uint128.add_eq_ok] at h
    obtain ⟨ad, _, _, ⟨hs, rfl⟩, h⟩ := h
    refine ih (fun e he => hl e (List.mem_cons_of_mem _ he)) (fun e he => ?_) hs h
    rcases mem_set he with rfl | he
    exacts [hl (a, x) List.mem_cons_self, hb e he]

theorem tok_inst {api : Api} {m : TokenInst} {s : TokenState} (hr : (InstMsg.token m).inRange = true)
    (h : Token.instantiate api m = .ok s) : Tok s := by
  simp only [InstMsg.inRange, Bool.and_eq_true, decide_eq_true_eq, List.all_eq_true] at hr
  obtain ⟨⟨hd, hb⟩, hm⟩ := hr
  have key : ∀ {b t}, Token.createAccounts api m.initialBalances = .ok (b, t) → (∀ e ∈ b, e.2 < B128) ∧ t < B128 := by
    intro b t hl
    simp only [Token.createAccounts, bind_eq_ok] at hl
    obtain ⟨_, _, hl⟩ := hl
    exact createLoop_fits hb (fun _ h => absurd h List.not_mem_nil) (by norm_num [B128]) hl
  unfold Token.instantiate at h
  cases hmm : m.mint <;> cases hc : Token.getCapInst m <;>
    simp only [hmm, hc, bind_eq_ok, pure_eq_ok, Prod.exists] at h hm
  · obtain ⟨_, _, b, t, h1, _, _, _, rfl, rfl⟩ := h
    exact ⟨hd, (key h1).2, rfl, (key h1).1, fun _ h => (nomatch h), fun _ h => (nomatch h)⟩
  · obtain ⟨_, _, b, t, h1, _, _, _, rfl, rfl⟩ := h
    exact ⟨hd, (key h1).2, rfl, (key h1).1, fun _ h => (nomatch h), fun _ h => (nomatch h)⟩
  · obtain ⟨_, _, b, t, h1, _, _, _, _, _, rfl, rfl⟩ := h
    exact ⟨hd, (key h1).2, hm, (key h1).1, fun _ h => (nomatch h), fun _ h => (nomatch h)⟩
  · obtain ⟨_, _, b, t, h1, _, _, _, _, _, rfl, rfl⟩ := h
    exact ⟨hd, (key h1).2, hm, (key h1).1, fun _ h => (nomatch h), fun _ h => (nomatch h)⟩

theorem intoMsg_fits {i : AssetInfo} {x : Nat} {r : Addr} (h : x < B128) :
    FitsAll (msgNumbers (({ info := i, amount := x } : Asset).intoMsg r)) := by
  have h' : x < 2 ^ 128 := h
  cases i <;>
    simpa [Asset.intoMsg, msgNumbers, execNumbers, coinNumbers, fitsAll_cons, fitsAll_nil] using h'

theorem pair_execute {c : Chain} {q : Querier} {w : World} {me : Addr} {s s' : Pair.State} {sender : Addr} {funds : List Coin} {m : ExecMsg}
    {r : Response} (hr : m.inRange = true) (hx : Pair.execute c.api (querier c q w) me s sender funds m = .ok (s', r)) :
    ∀ sm ∈ r.messages, FitsAll (msgNumbers sm.msg) := by
  rcases Pair.execute_inv hx with ⟨S, x, bp, ms, dst, rfl, h⟩ | ⟨S, x, rfl, h⟩ | ⟨as, tol, rc, rfl, h⟩
  · obtain ⟨rfl, _, o, a, od, ad, r', sp, k, hs⟩ := Pair.receive_swap_inv h
    intro sm hsm
    rw [hs.h_resp] at hsm
    dsimp only at hsm
    split at hsm
    · rw [List.mem_singleton.mp hsm]
      exact intoMsg_fits (computeSwap_lt hs.h_price)
    · cases hsm
  · obtain ⟨rfl, _, _, p0, p1, lt, ti, ratio, r0, r1, hs⟩ := Pair.receive_withdraw_inv (funds := funds) h
    intro sm hsm
    rw [hs.h_resp] at hsm
    simp only [List.mem_cons, List.not_mem_nil, or_false] at hsm
    have h0 := Uint128.mulDecimal_eq_ok.mp hs.h_r0
    have h1 := Uint128.mulDecimal_eq_ok.mp hs.h_r1
    rcases hsm with rfl | rfl | rfl
    · exact intoMsg_fits (h0.2 ▸ h0.1)
    · exact intoMsg_fits (h1.2 ▸ h1.1)
    · simp only [ExecMsg.inRange, Bool.and_eq_true, decide_eq_true_eq] at hr
      simp only [plain, msgNumbers, execNumbers, coinNumbers, List.map_nil, List.append_nil, fitsAll_cons, fitsAll_nil, and_true]
      exact hr.1
  · obtain ⟨rfl, p0, p1, d0, d1, lt, ti, share, hs⟩ := Pair.provide_inv h
    simp only [ExecMsg.inRange, Bool.and_eq_true, decide_eq_true_eq] at hr
    have key : ∀ {i d}, Pair.depositFor as i = .ok d → d < B128 := by
      intro i d hd
      rcases Pair.depositFor_eq_ok.mp hd with ⟨_, rfl⟩ | ⟨_, _, rfl⟩
      exacts [hr.1.1, hr.1.2]
    have coll : ∀ {i d cm}, d < B128 → cm ∈ Pair.collectMsg me sender i d → FitsAll (msgNumbers cm) := by
      intro i d cm hd hcm
      unfold Pair.collectMsg at hcm
      split at hcm
      · rw [List.mem_singleton.mp hcm]
        simp only [msgNumbers, execNumbers, coinNumbers, List.map_nil, List.append_nil, fitsAll_cons, fitsAll_nil, and_true]
        exact hd
      · cases hcm
    intro sm hsm
    rw [hs.h_resp] at hsm
    simp only [List.mem_map, List.mem_append, List.mem_singleton] at hsm
    obtain ⟨cm, hcm, rfl⟩ := hsm
    rcases hcm with (hcm | hcm) | rfl
    · exact coll (key hs.h_d0) hcm
    · exact coll (key hs.h_d1) hcm
    · simp only [plain, msgNumbers, execNumbers, coinNumbers, List.map_nil, List.append_nil, fitsAll_cons, fitsAll_nil, and_true]
      exact shareFor_lt hs.h_share

theorem hop_fits {me dst : Addr} : ∀ {ops : List SwapOp} {cm : CosmosMsg}, cm ∈ Router.hopMsgs me dst ops → FitsAll (msgNumbers cm) := by
  intro ops
  induction ops with
  | nil => intro cm h; cases h
  | cons op t ih =>
    intro cm h
    cases t with
    | nil =>
      rw [List.mem_singleton.mp h]
      exact fitsAll_nil
    | cons op' t =>
      rcases List.mem_cons.mp h with h | h
      · rw [h]; exact fitsAll_nil
      · exact ih h

theorem router_execute {c : Chain} {q : Querier} {w : World} {me : Addr} {s s' : Router.State} {sender : Addr} {m : ExecMsg}
    {r : Response} (hr : m.inRange = true) (hx : Router.execute c.api (querier c q w) me s sender m = .ok (s', r)) :
    ∀ sm ∈ r.messages, FitsAll (msgNumbers sm.msg) := by
  have ops : ∀ {S ops mn dst}, optLt B128 mn = true →
      Router.executeSwapOperations c.api (querier c q w) me s S ops mn dst = .ok (s', r) →
      ∀ sm ∈ r.messages, FitsAll (msgNumbers sm.msg) := by
    intro S ops mn dst hmn h
    simp only [Router.executeSwapOperations, bind_eq_ok] at h
    obtain ⟨last, _, _, _, h⟩ := h
    cases mn with
    | none =>
      simp only [pure_eq_ok, Prod.mk.injEq] at h
      obtain ⟨_, rfl⟩ := h
      intro sm hsm
      obtain ⟨cm, hcm, rfl⟩ := List.mem_map.mp hsm
      exact hop_fits hcm
    | some k =>
      simp only [bind_eq_ok, pure_eq_ok, Prod.mk.injEq] at h
      obtain ⟨prev, hp, _, rfl⟩ := h
      intro sm hsm
      obtain ⟨cm, hcm, rfl⟩ := List.mem_map.mp hsm
      rcases List.mem_append.mp hcm with hcm | hcm
      · exact hop_fits hcm
      · rw [List.mem_singleton.mp hcm]
        simp only [plain, msgNumbers, execNumbers, coinNumbers, List.map_nil, List.append_nil, fitsAll_cons, fitsAll_nil, and_true]
        exact ⟨queryPool_lt hp, of_decide_eq_true hmn⟩
  cases m with
  | receive S x p =>
    simp only [Router.execute, Router.receiveCw20, bind_eq_ok] at hx
    obtain ⟨_, _, hx⟩ := hx
    simp only [ExecMsg.inRange, Bool.and_eq_true] at hr
    cases p with
    | executeSwapOperations o mn dst =>
      simp only [bind_eq_ok] at hx
      obtain ⟨_, _, hx⟩ := hx
      exact ops hr.2 hx
    | _ => cases hx
  | executeSwapOperations o mn dst =>
    simp only [Router.execute, bind_eq_ok] at hx
    obtain ⟨_, _, hx⟩ := hx
    exact ops hr hx
  | executeSwapOperation op dst =>
    simp only [Router.execute, bind_eq_ok, Router.executeSwapOperation, pure_eq_ok, Prod.mk.injEq] at hx
    obtain ⟨_, _, _, _, _, _, p, _, x, hxx, _, rfl⟩ := hx
    intro sm hsm
    rw [List.mem_singleton.mp hsm]
    cases ho : op.offer with
    | native d =>
      rw [ho] at hxx
      have h : x < 2 ^ 128 := balance_lt hxx
      simpa [plain, Router.assetIntoSwapMsg, ho, msgNumbers, execNumbers, coinNumbers, opt128, fitsAll_cons, fitsAll_nil] using h
    | token t =>
      rw [ho] at hxx
      simp only [bind_eq_ok] at hxx
      obtain ⟨_, _, hxx⟩ := hxx
      have h : x < 2 ^ 128 := tokenBalance_lt hxx
      simpa [plain, Router.assetIntoSwapMsg, ho, msgNumbers, execNumbers, coinNumbers, fitsAll_cons, fitsAll_nil] using h
  | assertMinimumReceive i p k dst =>
    simp only [Router.execute, bind_eq_ok, Router.assertMinimumReceive, pure_eq_ok, Prod.mk.injEq] at hx
    obtain ⟨_, _, _, _, _, _, _, _, _, rfl⟩ := hx
    exact fun _ h => nomatch h
  | _ => cases hx

/-- The factory part, spelled out. -/
structure Fac (s : Factory.State) : Prop where
  pcode : s.config.pairCodeId < 2 ^ 64
  tcode : s.config.tokenCodeId < 2 ^ 64
  tmp : ∀ t, s.tmp = some t → t.assetDecimals.1 < 256 ∧ t.assetDecimals.2 < 256
  pairs : ∀ e ∈ s.pairs, FitsAll (pairNumbers e.2)
  allow : ∀ e ∈ s.allow, e.2 < 256

theorem fac_iff {s : Factory.State} : FitsAll (storedNumbers (.factory s)) ↔ Fac s := by
  simp only [storedNumbers, fitsAll_append, fitsAll_cons, fitsAll_map, fitsAll_flatMap, fitsAll_nil, and_true, Option.mem_toList]
  constructor
  · rintro ⟨⟨⟨⟨h1, h2⟩, h3⟩, h4⟩, h5⟩
    exact ⟨h1, h2, h3, h4, h5⟩
  · rintro ⟨h1, h2, h3, h4, h5⟩
    exact ⟨⟨⟨⟨h1, h2⟩, h3⟩, h4⟩, h5⟩

theorem optLt_getD {b d : Nat} {o : Option Nat} (h : optLt b o = true) (hd : d < b) : o.getD d < b := by
  cases o with
  | none => exact hd
  | some v => exact of_decide_eq_true h

theorem fac_execute {c : Chain} {q : Querier} {w : World} {me : Addr} {s s' : Factory.State} {sender : Addr} {m : ExecMsg}
    {r : Response} (h : Fac s) (hr : m.inRange = true) (hx : Factory.execute c.api (querier c q w) me s sender m = .ok (s', r)) :
    Fac s' ∧ ∀ sm ∈ r.messages, FitsAll (msgNumbers sm.msg) := by
  cases Factory.execute_inv hx with
  | update o t p own _ _ _ =>
    simp only [ExecMsg.inRange, Bool.and_eq_true] at hr
    exact ⟨⟨optLt_getD hr.2 h.pcode, optLt_getD hr.1 h.tcode, h.tmp, h.pairs, h.allow⟩, fun _ h => nomatch h⟩
  | create as req d0 d1 r0 r1 _ h0 h1 _ _ _ =>
    refine ⟨⟨h.pcode, h.tcode, fun t ht => ?_, h.pairs, h.allow⟩, fun sm hsm => ?_⟩
    · cases ht
      exact ⟨queryDecimals_lt h0, queryDecimals_lt h1⟩
    · rw [List.mem_singleton.mp hsm]
      simp only [msgNumbers, instNumbers, coinNumbers, List.map_nil, List.append_nil, fitsAll_cons,
        List.cons_append, List.nil_append]
      exact ⟨h.pcode, h.tcode, queryDecimals_lt h0, queryDecimals_lt h1, fitsAll_req.mpr hr⟩
  | addNative d dec b _ _ _ =>
    refine ⟨⟨h.pcode, h.tcode, h.tmp, h.pairs, fun e he => ?_⟩, fun _ h => nomatch h⟩
    rcases mem_set he with rfl | he
    exacts [of_decide_eq_true hr, h.allow e he]
  | migrate k code _ =>
    refine ⟨h, fun sm hsm => ?_⟩
    rw [List.mem_singleton.mp hsm]
    simp only [plain, msgNumbers, fitsAll_cons, fitsAll_nil, and_true]
    exact optLt_getD hr h.pcode

theorem fac_reply {c : Chain} {q : Querier} {w : World} {s s' : Factory.State} {created : Option Addr} {r : Response} (h : Fac s)
    (hx : Factory.reply c.api (querier c q w) s created = .ok (s', r)) : Fac s' ∧ r.messages = [] := by
  obtain ⟨tmp, p, info, lt, ca, h1, _, h2, _, _, rfl, rfl⟩ := Factory.reply_inv hx
  refine ⟨⟨h.pcode, h.tcode, h.tmp, fun e he => ?_, h.allow⟩, rfl⟩
  rcases mem_smapSet he with rfl | he
  · obtain ⟨hd0, hd1⟩ := h.tmp _ h1
    simp only [pairNumbers, List.cons_append, List.nil_append, fitsAll_cons]
    exact ⟨hd0, hd1, fitsAll_req.mpr (pairInfoFromPair_req h2)⟩
  · exact h.pairs e he

/-- Everything stored fits. -/
def Typed (w : World) : Prop := ∀ a adm s, w.contracts a = some ⟨adm, s⟩ → FitsAll (storedNumbers s)

theorem inst_step {c : Chain} {adv : Adv} {n : Nat} {me sender : Addr} {k : Kind} {m : InstMsg} {s : CState} {fs : List Frame}
    (h : callInstantiate c adv n me sender k m = .ok (s, fs)) :
    m.inRange = true ∧ FitsAll (storedNumbers s) ∧ (k ≠ .other → ∀ src sm, .msg src sm ∈ fs → FitsAll (msgNumbers sm.msg)) := by
  unfold callInstantiate at h
  simp only [bind_eq_ok, require_eq_ok] at h
  obtain ⟨_, hr, h⟩ := h
  refine ⟨hr, ?_⟩
  split at h <;> try simp only [bind_eq_ok, pure_eq_ok, Prod.mk.injEq, Prod.exists] at h
  · obtain ⟨_, h, rfl, rfl⟩ := h
    exact ⟨tok_iff.mpr (tok_inst hr h), fun _ _ _ h => nomatch h⟩
  · obtain ⟨_, _, h, rfl, rfl⟩ := h
    unfold Pair.instantiate at h
    simp only [bind_eq_ok, pure_eq_ok, Prod.mk.injEq] at h
    obtain ⟨_, _, _, _, _, _, rfl, rfl⟩ := h
    have hn := inst_fits.mpr hr
    simp only [instNumbers, fitsAll_append, fitsAll_cons, fitsAll_nil, and_true] at hn
    obtain ⟨⟨h1, h2, h3⟩, h4⟩ := hn
    refine ⟨?_, fun _ src sm hsm => ?_⟩
    · simp only [storedNumbers, pairNumbers, fitsAll_append, fitsAll_cons, fitsAll_nil, and_true]
      exact ⟨⟨h2, h3⟩, h4⟩
    · simp only [frames, List.map_cons, List.map_nil, List.mem_singleton, Frame.msg.injEq] at hsm
      obtain ⟨_, rfl⟩ := hsm
      simp only [msgNumbers, instNumbers, Pair.lpInst, coinNumbers, opt128, List.map_nil, List.append_nil, Option.bind_some,
        Option.toList_none, fitsAll_cons, fitsAll_nil, and_true]
      exact ⟨h1, by norm_num⟩
  · obtain ⟨_, _, h, rfl, rfl⟩ := h
    unfold Factory.instantiate at h
    simp only [bind_eq_ok, pure_eq_ok, Prod.mk.injEq] at h
    obtain ⟨_, _, rfl, rfl⟩ := h
    have hn := inst_fits.mpr hr
    simp only [instNumbers, fitsAll_cons, fitsAll_nil, and_true] at hn
    exact ⟨fac_iff.mpr ⟨hn.1, hn.2, fun _ h => (nomatch h), fun _ h => (nomatch h), fun _ h => (nomatch h)⟩, fun _ _ _ h => nomatch h⟩
  · obtain ⟨_, _, h, rfl, rfl⟩ := h
    unfold Router.instantiate at h
    simp only [bind_eq_ok, pure_eq_ok, Prod.mk.injEq] at h
    obtain ⟨_, _, rfl, rfl⟩ := h
    exact ⟨fitsAll_nil, fun _ _ _ h => nomatch h⟩
  · obtain ⟨_, _, rfl, rfl⟩ := h
    exact ⟨fitsAll_nil, fun h => absurd rfl h⟩
  · cases h

theorem Typed.set {w w1 : World} (hw : Typed w) (hc : w1.contracts = w.contracts) {a : Addr} {ct : Contract}
    (h : FitsAll (storedNumbers ct.state)) : Typed (w1.setContract a ct) := by
  intro b adm s hb
  by_cases hba : b = a
  · subst hba
    rw [setContract_self] at hb
    cases hb
    exact h
  · rw [setContract_ne _ _ hba, hc] at hb
    exact hw b adm s hb

theorem mem_frames {me src : Addr} {r : Response} {sm : SubMsg} {id : Option Nat} {s : Addr} {o : Option Addr}
    (h : .msg src sm ∈ frames me r ++ replyFrame s id o) : sm ∈ r.messages := by
  rcases List.mem_append.mp h with h | h
  · simp only [frames, List.mem_map, Frame.msg.injEq] at h
    obtain ⟨_, h1, _, rfl⟩ := h
    exact h1
  · cases id <;> simp [replyFrame] at h

theorem no_reply {src s : Addr} {sm : SubMsg} {id : Option Nat} {o : Option Addr} (h : Frame.msg src sm ∈ replyFrame s id o) : False := by
  cases id <;> simp [replyFrame] at h

/-- One step: storage stays within its types and so does what is sent. -/
theorem Typed.step {c : Chain} {adv : Adv} {n : Nat} {w w' : World} {f : Frame} {fs : List Frame} (hw : Typed w)
    (h : StepI c adv n w f w' fs) :
    Typed w' ∧ (¬ RunsForeign c w f → ∀ src sm, .msg src sm ∈ fs → FitsAll (msgNumbers sm.msg)) := by
  cases h with
  | bank _ _ _ _ _ _ _ _ hm =>
    refine ⟨fun a adm s ha => hw a adm s ((moveCoins_inv hm).contracts ▸ ha), fun _ _ _ hg => (no_reply hg).elim⟩
  | token sender _ m _ _ me w1 admin s s' r _ hm hr hc hx =>
    obtain ⟨h1, h2⟩ := (tok_iff.mp (hw _ _ _ hc)).execute hr hx
    exact ⟨hw.set (moveCoins_inv hm).contracts (tok_iff.mpr h1), fun _ _ _ hg => h2 _ (mem_frames hg)⟩
  | pair sender _ m _ _ me w1 admin s s' r _ hm hr hc hx =>
    have hs := (Pair.execute_out hx).1
    subst hs
    exact ⟨hw.set (moveCoins_inv hm).contracts (hw _ _ _ hc), fun _ _ _ hg => pair_execute hr hx _ (mem_frames hg)⟩
  | factory sender _ m _ _ me w1 admin s s' r _ hm hr hc hx =>
    obtain ⟨h1, h2⟩ := fac_execute (fac_iff.mp (hw _ _ _ hc)) hr hx
    exact ⟨hw.set (moveCoins_inv hm).contracts (fac_iff.mpr h1), fun _ _ _ hg => h2 _ (mem_frames hg)⟩
  | router sender _ m _ _ me w1 admin s s' r _ hm hr hc hx =>
    exact ⟨hw.set (moveCoins_inv hm).contracts fitsAll_nil, fun _ _ _ hg => router_execute hr hx _ (mem_frames hg)⟩
  | other _ t _ _ _ me _ admin _ hme hm hc =>
    exact ⟨fun a adm s ha => hw a adm s ((moveCoins_inv hm).contracts ▸ ha), fun hf => absurd ⟨me, admin, hme, hc⟩ hf⟩
  | inst sender admin codeId m funds id k adm w1 s fs hk hadm hnew hm hx =>
    obtain ⟨_, h1, h2⟩ := inst_step hx
    refine ⟨Typed.set (w := w) hw (moveCoins_inv hm).contracts h1, fun hf src sm hg => ?_⟩
    rcases List.mem_append.mp hg with hg | hg
    · refine h2 ?_ src sm hg
      rintro rfl
      exact hf hk
    · exact (no_reply hg).elim
  | migrate sender _ _ _ k me s _ _ hc =>
    refine ⟨hw.set rfl ?_, fun _ _ _ hg => (no_reply hg).elim⟩
    have := hw _ _ _ hc
    cases k <;> cases s <;> first | exact this | exact fitsAll_nil
  | admin sender _ _ _ adm me s _ hc _ => exact ⟨hw.set rfl (hw _ _ _ hc), fun _ _ _ hg => (no_reply hg).elim⟩
  | replyPair me _ _ admin s s' r hc hx =>
    simp only [Pair.reply, bind_eq_ok, pure_eq_ok, Prod.mk.injEq] at hx
    obtain ⟨_, _, _, _, rfl, rfl⟩ := hx
    have h1 : FitsAll (storedNumbers (.pair s)) := hw _ _ _ hc
    exact ⟨hw.set rfl h1, fun _ _ _ hg => nomatch hg⟩
  | replyFactory me _ _ admin s s' r hc hx =>
    obtain ⟨h1, h2⟩ := fac_reply (fac_iff.mp (hw _ _ _ hc)) hx
    refine ⟨hw.set rfl (fac_iff.mpr h1), fun _ _ _ hg => ?_⟩
    rw [frames, h2] at hg
    cases hg
  | replyOther me _ _ admin _ hc => exact ⟨hw, fun hf => absurd ⟨admin, hc⟩ hf⟩

end Wire

/-- C82, storage: in every reachable state, every number stored by a token, pair or factory fits its Rust type. -/
theorem C82_stored {c : Chain} {w : World} (hw : Reachable c w) {a : Addr} {adm : Option Addr} {s : CState}
    (ha : w.contracts a = some ⟨adm, s⟩) : FitsAll (storedNumbers s) :=
  reachable_induct (P := Wire.Typed) (fun w hg a adm s ha => by rw [hg.2 a] at ha; cases ha)
    (fun _ _ _ _ _ _ hw h => (hw.step h).1) (fun _ _ hp => hp) (fun _ _ _ hp => hp) hw a adm s ha

/-- C82, messages received: one of the four contracts never executes a message with a number that does not fit. -/
theorem C82_received {c : Chain} {adv : Adv} {n : Nat} {w w' : World} {fs : List Frame} {sender : Addr} {m : CosmosMsg} {id : Option Nat}
    (h : step c adv n w (.msg sender ⟨m, id⟩) = .ok (w', fs)) (hf : ¬ RunsForeign c w (.msg sender ⟨m, id⟩)) :
    (∀ t x l, m = .exec t x l → FitsAll (execNumbers x) ∧ FitsAll (payloadNumbers x) ∧ FitsAll ((expiryOf x).toList.flatMap expiryNumbers)) ∧
      ∀ ad code x l, m = .inst ad code x l → FitsAll (instNumbers x) := by
  constructor
  · rintro t x l rfl
    cases step_inv h with
    | token _ _ _ _ _ me w1 admin s s' r _ hm hr hc hx =>
      exact Wire.exec_fits hr (by rintro b y d rfl; cases hx)
    | pair _ _ _ _ _ me w1 admin s s' r _ hm hr hc hx =>
      exact Wire.exec_fits hr (by rintro b y d rfl; cases hx)
    | factory _ _ _ _ _ me w1 admin s s' r _ hm hr hc hx =>
      exact Wire.exec_fits hr (by rintro b y d rfl; cases hx)
    | router _ _ _ _ _ me w1 admin s s' r _ hm hr hc hx =>
      exact Wire.exec_fits hr (by rintro b y d rfl; cases hx)
    | other _ _ _ _ _ me _ admin _ hme hm hc => exact absurd ⟨me, admin, hme, hc⟩ hf
  · rintro ad code x l rfl
    cases step_inv h with
    | inst _ _ _ _ _ _ k _ _ s fs hk hadm hnew hm hx => exact Wire.inst_fits.mpr (Wire.inst_step hx).1

/-- C82, messages sent: in every history, whatever one of the four contracts sends contains only numbers that fit. (The payload of a
token's `Receive` message is its user's.) -/
theorem C82_sent {c : Chain} {u w : World} (hu : Reachable c u) {tr : List (World × Frame)} (hh : Hist c u tr w) {v : World} {f : Frame}
    (hv : (v, f) ∈ tr) (hf : ¬ RunsForeign c v f) {adv : Adv} {n : Nat} {v' : World} {fs : List Frame}
    (hs : step c adv n v f = .ok (v', fs)) {src : Addr} {sm : SubMsg} (hm : .msg src sm ∈ fs) : FitsAll (msgNumbers sm.msg) := by
  have key : Wire.Typed v := by
    clear hs hm hf
    induction hh with
    | refl => cases hv
    | tx tr adv gas x y signer m h hsig hx ih =>
      rcases List.mem_append.mp hv with hv | hv
      · exact ih hv
      · obtain ⟨_, hp⟩ := trace_all (P := fun w _ => Wire.Typed w) (fun n w f w' fs rest hw h => (hw.step h).1)
          (fun a adm s ha => C82_stored (hu.later h.later) ha) _ hv
        exact hp
    | block tr x b h ih => exact ih hv
    | env tr x bank' h hb ih => exact ih hv
  exact (key.step (step_inv hs)).2 hf src sm hm

namespace Demo

/-- The factory of the demo stores a configuration and two pairs, nothing of which is left out. -/
example : ∃ adm s, deployed.contracts fac = some ⟨adm, s⟩ ∧ 2 < (storedNumbers s).length ∧ FitsAll (storedNumbers s) := by
  have h : ∃ adm s, deployed.contracts fac = some ⟨adm, s⟩ ∧ 2 < (storedNumbers s).length := by
    cases hc : deployed.contracts fac with
    | none => exact absurd hc (by
        have : (deployed.contracts fac).isSome = true := by decide +kernel
        intro h; rw [h] at this; cases this)
    | some ct =>
      refine ⟨ct.admin, ct.state, rfl, ?_⟩
      have : ((deployed.contracts fac).map fun k => decide (2 < (storedNumbers k.state).length)) = some true := by decide +kernel
      rw [hc] at this
      exact of_decide_eq_true (Option.some.inj this)
  obtain ⟨adm, s, h1, h2⟩ := h
  exact ⟨adm, s, h1, h2, C82_stored deployed_reachable h1⟩

/-- The frames of a two-hop route, after which something is sent by one of the contracts. -/
example : ∃ u tr w v f v' fs src sm, Reachable chain u ∧ Hist chain u tr w ∧ (v, f) ∈ tr ∧ ¬ RunsForeign chain v f ∧
    step chain idle 19 v f = .ok (v', fs) ∧ .msg src sm ∈ fs ∧ 0 < (msgNumbers sm.msg).length := by
  have h : ((val (step chain idle 19 deployed (.msg user (plain twoHops)))).map fun r => r.2.any fun g => match g with
      | .msg _ sm => decide (0 < (msgNumbers sm.msg).length)
      | _ => false) = some true := by decide +kernel
  rw [Option.map_eq_some_iff] at h
  obtain ⟨⟨v', fs⟩, h1, h2⟩ := h
  obtain ⟨g, hg, h2⟩ := List.any_eq_true.mp h2
  have hr : ∃ w, runs [twoHops] deployed = .ok w := by
    have : (val (runs [twoHops] deployed)).isSome = true := by decide +kernel
    obtain ⟨w, hw⟩ := Option.isSome_iff_exists.mp this
    exact ⟨w, val_eq hw⟩
  obtain ⟨w, hr⟩ := hr
  cases g with
  | reply => cases h2
  | msg src sm =>
    refine ⟨deployed, _, w, deployed, _, v', fs, src, sm, deployed_reachable, hist_runs hr, ?_, fun hf => ?_, val_eq h1, hg,
      of_decide_eq_true h2⟩
    · simp only [traces, trace]
      exact List.mem_cons_self
    · have := runsForeign_iff hf
      revert this
      decide +kernel

end Demo

end Halo
