import Verif.Props.Cw20
import Verif.Props.Desk
import Verif.Props.Tokens
import Verif.Lemmas.CreateLiveL
import Verif.Text
/-! # C78: deployment, exactly -/

namespace Halo
open _root_.Halo.Spec

/-- A token description that may be deployed: well described, holders and minter well formed, no holder listed twice, the
opening supply within 128 bits and within the cap. -/
structure TokenInst.Deployable (valid : Addr → Prop) (m : TokenInst) : Prop where
  described : TokenMeta m.name m.symbol m.decimals
  holders : ∀ e ∈ m.initialBalances, valid e.1
  once : m.initialBalances.Pairwise fun e f => e.1 ≠ f.1
  fits : (m.initialBalances.map Prod.snd).sum < 2 ^ 128
  minter : ∀ r, m.mint = some r → valid r.minter
  cap : ∀ r k, m.mint = some r → r.cap = some k → (m.initialBalances.map Prod.snd).sum ≤ k

/-- The book a deployed token opens with. -/
structure TokenInst.Opens (m : TokenInst) (b : Book) : Prop where
  supply : b.supply = (m.initialBalances.map Prod.snd).sum
  minter : b.minter = m.mint.map fun r => (r.minter, r.cap)
  listed : ∀ e ∈ m.initialBalances, b.bal e.1 = e.2
  unlisted : ∀ a, (∀ e ∈ m.initialBalances, e.1 ≠ a) → b.bal a = 0
  allow : ∀ o sp, b.allow o sp = none

/-- The admin named in a deployment is an address. -/
def AdminIs (c : Chain) : Option Str → Option Addr → Prop
  | none, x => x = none
  | some a, x => ∃ y, c.api.resolve a = .ok y ∧ x = some y

private theorem resolveAdmin_iff {c : Chain} {a : Option Str} {x : Option Addr} :
    resolveAdmin c.api a = .ok x ↔ AdminIs c a x := by
  cases a with
  | none => simp only [resolveAdmin, AdminIs, Except.ok.injEq, eq_comm]
  | some a =>
    simp only [resolveAdmin, AdminIs, bind_eq_ok, pure_eq_ok]
    exact exists_congr fun y => and_congr_right fun _ => eq_comm

private theorem valid_name {s : Str} : Token.isValidName s = true ↔ 3 ≤ s.length ∧ s.length ≤ 50 := by
  simp only [Token.isValidName, Bool.not_eq_true', Bool.or_eq_false_iff, decide_eq_false_iff_not, not_lt]

private theorem valid_symbol {s : Str} : Token.isValidSymbol s = true ↔ 3 ≤ s.length ∧ s.length ≤ 12 ∧
    ∀ b ∈ s, b = 45 ∨ (65 ≤ b ∧ b ≤ 90) ∨ (97 ≤ b ∧ b ≤ 122) := by
  unfold Token.isValidSymbol
  split
  · rename_i h
    constructor
    · intro e; cases e
    · intro e; omega
  · rename_i h
    rw [List.all_eq_true]
    constructor
    · intro e
      refine ⟨by omega, by omega, fun b hb => ?_⟩
      have := e b hb
      by_contra hc
      simp only [not_or, not_and] at hc
      obtain ⟨h1, h2, h3⟩ := hc
      simp only [Bool.not_eq_true', Bool.and_eq_false_iff, decide_eq_false_iff_not, Bool.or_eq_false_iff,
        UInt8.not_lt, gt_iff_lt] at this
      rcases this with (h4 | h4) | h4
      · exact h4 h1
      · exact h2 h4.1 h4.2
      · exact h3 h4.1 h4.2
    · rintro ⟨_, _, e⟩ b hb
      simp only [Bool.not_eq_true', Bool.and_eq_false_iff, decide_eq_false_iff_not, Bool.or_eq_false_iff,
        UInt8.not_lt, gt_iff_lt]
      rcases e b hb with h | h | h
      · exact .inl (.inl (fun hn => hn h))
      · exact .inl (.inr h)
      · exact .inr h

private theorem createLoop_iff {api : Api} {l : List (Str × Nat)} :
    ∀ {b b' : AMap Addr Nat} {n n' : Nat}, n < B128 → (Token.createLoop api l b n = .ok (b', n') ↔
      (∀ e ∈ l, api.Valid e.1) ∧ n + (l.map Prod.snd).sum < B128 ∧ n' = n + (l.map Prod.snd).sum ∧
        b' = l.foldl (fun m e => m.set e.1 e.2) b) := by
  induction l with
  | nil =>
    intro b b' n n' hn
    simp only [Token.createLoop, Except.ok.injEq, Prod.mk.injEq, List.not_mem_nil, false_implies, implies_true,
      List.map_nil, List.sum_nil, Nat.add_zero, List.foldl_nil, true_and]
    constructor
    · rintro ⟨rfl, rfl⟩; exact ⟨hn, rfl, rfl⟩
    · rintro ⟨_, rfl, rfl⟩; exact ⟨rfl, rfl⟩
  | cons hd t ih =>
    obtain ⟨a, x⟩ := hd
    intro b b' n n' hn
    simp only [Token.createLoop, bind_eq_ok, Uint128.add_eq_ok, List.mem_cons, forall_eq_or_imp, List.map_cons,
      List.sum_cons, List.foldl_cons]
    constructor
    · rintro ⟨a', h1, _, ⟨h2, rfl⟩, h3⟩
      obtain ⟨rfl, _⟩ := validate_eq_ok.mp h1
      obtain ⟨h4, h5, h6, h7⟩ := (ih h2).mp h3
      exact ⟨⟨h1, h4⟩, by omega, by omega, h7⟩
    · rintro ⟨⟨h1, h4⟩, h5, h6, h7⟩
      exact ⟨a, h1, n + x, ⟨by omega, rfl⟩, (ih (by omega)).mpr ⟨h4, by omega, by omega, h7⟩⟩

private theorem fold_bal {l : List (Str × Nat)} : ∀ {b : AMap Addr Nat}, (l.Pairwise fun e f => e.1 ≠ f.1) →
    (∀ e ∈ l, (l.foldl (fun m e => m.set e.1 e.2) b).getD0 e.1 = e.2) ∧
    ∀ a, (∀ e ∈ l, e.1 ≠ a) → (l.foldl (fun m e => m.set e.1 e.2) b).getD0 a = b.getD0 a := by
  induction l with
  | nil => intro b _; exact ⟨fun _ h => by simp at h, fun _ _ => rfl⟩
  | cons hd t ih =>
    intro b hp
    obtain ⟨h1, h2⟩ := List.pairwise_cons.mp hp
    obtain ⟨h3, h4⟩ := ih (b := b.set hd.1 hd.2) h2
    simp only [List.mem_cons, forall_eq_or_imp, List.foldl_cons]
    refine ⟨⟨?_, h3⟩, ?_⟩
    · rw [h4 _ fun e he => (h1 e he).symm, AMap.getD0_set, if_pos rfl]
    · rintro a ⟨ha, hr⟩
      rw [h4 _ hr, AMap.getD0_set, if_neg (Ne.symm ha)]

private theorem nodup_pairwise {l : List (Str × Nat)} : (l.map Prod.fst).Nodup ↔ l.Pairwise fun e f => e.1 ≠ f.1 := by
  rw [List.Nodup, List.pairwise_map]

private theorem token_inst_iff {api : Api} {m : TokenInst} {s : TokenState} :
    Token.instantiate api m = .ok s ↔ m.Deployable api.Valid ∧
      s = ⟨m.name, m.symbol, m.decimals, (m.initialBalances.map Prod.snd).sum, m.mint.map fun r => ⟨r.minter, r.cap⟩,
        m.initialBalances.foldl (fun m e => m.set e.1 e.2) [], []⟩ := by
  have hB : (0 : Nat) < B128 := by norm_num [B128]
  have hBB : B128 = 2 ^ 128 := rfl
  constructor
  · intro h
    obtain ⟨h1, h2, h3, h4, h5, h6, h7, h8⟩ := Token.instantiate_inv h
    simp only [Token.createAccounts, Token.validateAccounts, bind_eq_ok, require_eq_ok] at h7
    obtain ⟨_, hd, h7⟩ := h7
    obtain ⟨g1, g2, g3, g4⟩ := (createLoop_iff hB).mp h7
    rw [Nat.zero_add] at g2 g3
    have hn := valid_name.mp h8.name
    have hs := valid_symbol.mp h8.symbol
    rw [h1] at hn
    rw [h2] at hs
    refine ⟨⟨⟨hn.1, hn.2, hs.1, hs.2.1, hs.2.2, ?_⟩, g1, nodup_pairwise.mp hd, g2, h6, fun r k hr hk => ?_⟩, ?_⟩
    · rw [← h3]; exact h8.decimals
    · rw [← g3]
      exact h8.cap ⟨r.minter, r.cap⟩ k (by rw [h5, hr]; rfl) hk
    · obtain ⟨n, sy, d, ts, mi, ba, al⟩ := s
      simp only at h1 h2 h3 h4 h5 g3 g4
      subst h1 h2 h3 h4 h5 g3 g4
      rfl
  · rintro ⟨⟨hm, hv, ho, hf, hmi, hc⟩, rfl⟩
    have h1 : Token.validate m = .ok () := by
      simp only [Token.validate, bind_eq_ok, require_eq_ok]
      exact ⟨(), valid_name.mpr ⟨hm.name_lo, hm.name_hi⟩, (), valid_symbol.mpr ⟨hm.symbol_lo, hm.symbol_hi, hm.letters⟩,
        by have := hm.decimals_hi; omega⟩
    have h2 : Token.createAccounts api m.initialBalances =
        .ok (m.initialBalances.foldl (fun m e => m.set e.1 e.2) [], (m.initialBalances.map Prod.snd).sum) := by
      simp only [Token.createAccounts, Token.validateAccounts, bind_eq_ok, require_eq_ok]
      exact ⟨(), nodup_pairwise.mpr ho, (createLoop_iff hB).mpr ⟨hv, by rw [Nat.zero_add]; exact hf, by rw [Nat.zero_add], rfl⟩⟩
    simp only [Token.instantiate, h1, h2, ok_bind]
    cases hr : m.mint with
    | none => simp only [Token.getCapInst, hr, Option.bind_none]; rfl
    | some r =>
      have hva : api.validate r.minter = .ok r.minter := hmi r hr
      cases hk : r.cap with
      | none => simp only [Token.getCapInst, hr, Option.bind_some, hk, hva, ok_bind]; simp [hk, pure, Except.pure]
      | some k =>
        have := hc r k hr hk
        have hq : require (¬ (m.initialBalances.map Prod.snd).sum > k) (.generic 23) = .ok () := by
          rw [require_eq_ok]; omega
        simp only [Token.getCapInst, hr, Option.bind_some, hk, hva, ok_bind, hq]
        simp [hk, pure, Except.pure]

/-- A deployment: the contract `s` appears at the next address, with the named admin, the coins sent along arrive there, and
nothing else changes. -/
structure Deploys (c : Chain) (w w' : World) (u : Addr) (adm : Option Str) (funds : List Coin) (s : CState) : Prop where
  free : w.contracts (c.addrOf w.next) = none
  here : ∃ a, AdminIs c adm a ∧ w'.contracts (c.addrOf w.next) = some ⟨a, s⟩
  others : ∀ b, b ≠ c.addrOf w.next → w'.contracts b = w.contracts b
  coins : ∃ w1, moveCoins w u (c.addrOf w.next) funds = .ok w1 ∧ w'.bank = w1.bank
  next : w'.next = w.next + 1
  block : w'.block = w.block

private theorem move_next {w w1 : World} {n : Nat} {src dst : Addr} {coins : List Coin} :
    moveCoins { w with next := n } src dst coins = .ok w1 ↔
      ∃ v, moveCoins w src dst coins = .ok v ∧ w1 = { v with next := n } := by
  have loop : ∀ (l : List Coin) (w : World) {w1 : World}, moveCoinsLoop src dst l { w with next := n } = .ok w1 ↔
      ∃ v, moveCoinsLoop src dst l w = .ok v ∧ w1 = { v with next := n } := by
    intro l
    induction l with
    | nil => intro w w1; simp only [moveCoinsLoop, Except.ok.injEq, exists_eq_left', eq_comm]
    | cons x t ih =>
      intro w w1
      simp only [moveCoinsLoop, moveCoin, bind_eq_ok, require_eq_ok, pure_eq_ok]
      constructor
      · rintro ⟨_, ⟨_, h1, _, h2, rfl⟩, h⟩
        obtain ⟨v, h3, h4⟩ := (ih (w.setBank x.denom _)).mp h
        exact ⟨v, ⟨_, ⟨(), h1, (), h2, rfl⟩, h3⟩, h4⟩
      · rintro ⟨v, ⟨_, ⟨_, h1, _, h2, rfl⟩, h⟩, rfl⟩
        exact ⟨_, ⟨(), h1, (), h2, rfl⟩, (ih (w.setBank x.denom _)).mpr ⟨v, h, rfl⟩⟩
  simp only [moveCoins, bind_eq_ok, require_eq_ok]
  constructor
  · rintro ⟨_, h, h'⟩
    obtain ⟨v, h1, h2⟩ := (loop coins w).mp h'
    exact ⟨v, ⟨(), h, h1⟩, h2⟩
  · rintro ⟨v, ⟨_, h, h1⟩, h2⟩
    exact ⟨(), h, (loop coins w).mpr ⟨v, h1, h2⟩⟩

/-- One deployment step. -/
private theorem inst_step {c : Chain} (hl : c.Lawful) {w : World} (hw : ContractsAt c w) {u : Addr} {adm : Option Str}
    {id : Nat} {m : InstMsg} {funds : List Coin} {k : Kind} (hk : c.codes id = some k) {rid : Option Nat} {adv : Adv}
    {n : Nat} {w' : World} {fs : List Frame} :
    step c adv n w (.msg u ⟨.inst adm id m funds, rid⟩) = .ok (w', fs) ↔
      ∃ v a s gs, moveCoins w u (c.addrOf w.next) funds = .ok v ∧ AdminIs c adm a ∧
        callInstantiate c adv n (c.addrOf w.next) u k m = .ok (s, gs) ∧
        w' = ({ v with next := w.next + 1 } : World).setContract (c.addrOf w.next) ⟨a, s⟩ ∧
        fs = gs ++ replyFrame u rid (some (c.addrOf w.next)) := by
  simp only [step, bind_eq_ok, require_eq_ok, pure_eq_ok, Prod.exists, okOr_eq_ok, hk, Option.some.injEq, exists_eq_left',
    resolveAdmin_iff, Prod.mk.injEq]
  constructor
  · rintro ⟨a, ha, _, _, w1, h1, s, gs, h2, h3, h4⟩
    obtain ⟨v, h5, rfl⟩ := move_next.mp h1
    exact ⟨v, a, s, gs, h5, ha, h2, h3.symm, h4.symm⟩
  · rintro ⟨v, a, s, gs, h5, ha, h2, h3, h4⟩
    exact ⟨a, ha, (), by rw [fresh_addr hl hw (Nat.le_refl _)]; rfl, _, move_next.mpr ⟨v, h5, rfl⟩, s, gs, h2, h3.symm,
      h4.symm⟩

private theorem deploys_of {c : Chain} (hl : c.Lawful) {w v : World} (hw : ContractsAt c w) {u : Addr} {adm : Option Str}
    {funds : List Coin} {a : Option Addr} {s : CState} (hv : moveCoins w u (c.addrOf w.next) funds = .ok v)
    (ha : AdminIs c adm a) :
    Deploys c w (({ v with next := w.next + 1 } : World).setContract (c.addrOf w.next) ⟨a, s⟩) u adm funds s := by
  have hm := moveCoins_inv hv
  refine ⟨fresh_addr hl hw (Nat.le_refl _), ⟨a, ha, setContract_self _ _ _⟩, fun b hb => ?_, ⟨v, hv, rfl⟩, rfl, hm.block⟩
  rw [setContract_ne _ _ hb, ← hm.contracts]

/-- A deployment whose code sends no messages. -/
private theorem inst_tx {c : Chain} (hl : c.Lawful) {w : World} (hw : Reachable c w) {u : Addr} {adm : Option Str}
    {id : Nat} {m : InstMsg} {funds : List Coin} {k : Kind} (hk : c.codes id = some k) {P : CState → Prop}
    (hs : ∀ adv n s gs, callInstantiate c adv n (c.addrOf w.next) u k m = .ok (s, gs) ↔ P s ∧ gs = []) {adv : Adv} {gas : Nat}
    {w' : World} :
    (runTx c adv gas w u (.inst adm id m funds) = .ok w' →
      ∃ s, P s ∧ Deploys c w w' u adm funds s) ∧
    ((∃ v, moveCoins w u (c.addrOf w.next) funds = .ok v) → (∃ a, AdminIs c adm a) → (∃ s, P s) →
      ∃ w', runTx c adv 1 w u (.inst adm id m funds) = .ok w') := by
  constructor
  · intro h
    obtain ⟨n, h⟩ := runTx_inv h
    obtain ⟨k', v, fs, rfl, h1, h⟩ := run_cons_inv h
    obtain ⟨v1, a, s, gs, h2, h3, h4, rfl, rfl⟩ := (inst_step hl hw.contractsAt hk).mp h1
    obtain ⟨hp, rfl⟩ := (hs _ _ _ _).mp h4
    simp only [replyFrame, List.append_nil, run_nil, Except.ok.injEq, Prod.mk.injEq] at h
    obtain ⟨_, rfl⟩ := h
    exact ⟨s, hp, deploys_of hl hw.contractsAt h2 h3⟩
  · rintro ⟨v, hv⟩ ⟨a, ha⟩ ⟨s, hp⟩
    refine ⟨({ v with next := w.next + 1 } : World).setContract (c.addrOf w.next) ⟨a, s⟩, ?_⟩
    have := run_cons_of (fs := []) (n' := 0) ((inst_step hl hw.contractsAt hk (rid := none) (adv := adv) (n := 0)).mpr
      ⟨v, a, s, [], hv, ha, (hs _ _ _ _).mpr ⟨hp, rfl⟩, rfl, rfl⟩) rfl
    simp only [runTx, plain, this, ok_bind]
    rfl

/-! ## Tokens -/

private theorem call_token {c : Chain} {m : TokenInst} (hr : (InstMsg.token m).inRange = true) (me u : Addr) (adv : Adv)
    (n : Nat) (s : CState) (gs : List Frame) : callInstantiate c adv n me u .token (.token m) = .ok (s, gs) ↔
      (∃ ts, Token.instantiate c.api m = .ok ts ∧ s = .token ts) ∧ gs = [] := by
  simp only [callInstantiate, bind_eq_ok, require_eq_ok, pure_eq_ok, Prod.mk.injEq]
  constructor
  · rintro ⟨_, _, ts, h, rfl, rfl⟩; exact ⟨⟨ts, h, rfl⟩, rfl⟩
  · rintro ⟨⟨ts, h, rfl⟩, rfl⟩; exact ⟨(), hr, ts, h, rfl, rfl⟩

/-- C78: a token can be deployed exactly if its description is deployable, the admin is an address and the coins sent along
are there. -/
theorem C78_token_iff {c : Chain} (hl : c.Lawful) {w : World} (hw : Reachable c w) (u : Addr) {adm : Option Str} {id : Nat}
    (hk : c.codes id = some .token) {m : TokenInst} (hr : (InstMsg.token m).inRange = true) {funds : List Coin}
    (adv : Adv) :
    (∃ gas w', runTx c adv gas w u (.inst adm id (.token m) funds) = .ok w') ↔
      (∃ v, moveCoins w u (c.addrOf w.next) funds = .ok v) ∧ (∃ a, AdminIs c adm a) ∧ m.Deployable c.api.Valid := by
  constructor
  · rintro ⟨gas, w', h⟩
    obtain ⟨_, ⟨ts, h1, _⟩, h2⟩ := (inst_tx hl hw hk (fun adv n => call_token hr _ u adv n)).1 h
    obtain ⟨a, ha, _⟩ := h2.here
    obtain ⟨v, hv, _⟩ := h2.coins
    exact ⟨⟨v, hv⟩, ⟨a, ha⟩, (token_inst_iff.mp h1).1⟩
  · rintro ⟨hv, ha, hd⟩
    obtain ⟨w', h⟩ := (inst_tx hl hw hk (fun adv n => call_token hr _ u adv n) (gas := 0) (w' := w)).2 hv ha
      ⟨_, _, token_inst_iff.mpr ⟨hd, rfl⟩, rfl⟩
    exact ⟨1, w', h⟩

/-- C78: a deployed token keeps the name, the symbol and the decimals of its description and opens with the described book,
and nothing else changes. -/
theorem C78_token_effect {c : Chain} (hl : c.Lawful) {w w' : World} (hw : Reachable c w) {u : Addr} {adm : Option Str}
    {id : Nat} (hk : c.codes id = some .token) {m : TokenInst} {funds : List Coin} {adv : Adv} {gas : Nat}
    (h : runTx c adv gas w u (.inst adm id (.token m) funds) = .ok w') :
    ∃ s, Deploys c w w' u adm funds (.token s) ∧ s.name = m.name ∧ s.symbol = m.symbol ∧ s.decimals = m.decimals ∧
      m.Opens s.book := by
  have hr : (InstMsg.token m).inRange = true := by
    obtain ⟨n, h⟩ := runTx_inv h
    obtain ⟨_, _, _, _, h1, _⟩ := run_cons_inv h
    obtain ⟨_, _, _, _, _, _, h4, _⟩ := (inst_step hl hw.contractsAt hk).mp h1
    simp only [callInstantiate, bind_eq_ok, require_eq_ok] at h4
    obtain ⟨_, h4, _⟩ := h4
    exact h4
  obtain ⟨_, ⟨ts, h1, rfl⟩, h2⟩ := (inst_tx hl hw hk (fun adv n => call_token hr _ u adv n)).1 h
  obtain ⟨hd, rfl⟩ := token_inst_iff.mp h1
  obtain ⟨hb, hb'⟩ := fold_bal (b := []) hd.once
  refine ⟨_, h2, rfl, rfl, rfl, rfl, ?_, hb, fun a ha => ?_, fun _ _ => rfl⟩
  · simp only [TokenState.book, Option.map_map]; rfl
  · exact hb' a ha

/-! ## Factories and routers -/

private theorem call_factory {c : Chain} {pc tc : Nat} (hr : pc < 2 ^ 64 ∧ tc < 2 ^ 64) (me u : Addr) (adv : Adv)
    (n : Nat) (s : CState) (gs : List Frame) : callInstantiate c adv n me u .factory (.factory pc tc) = .ok (s, gs) ↔
      (∃ o, c.api.canon u = some o ∧ s = .factory ⟨⟨o, pc, tc⟩, none, [], []⟩) ∧ gs = [] := by
  simp only [callInstantiate, Factory.instantiate, bind_eq_ok, require_eq_ok, pure_eq_ok, Prod.mk.injEq, Prod.exists,
    canonicalize_eq_ok]
  constructor
  · rintro ⟨_, _, _, _, ⟨o, h, rfl, rfl⟩, rfl, rfl⟩; exact ⟨⟨o, h, rfl⟩, rfl⟩
  · rintro ⟨⟨o, h, rfl⟩, rfl⟩
    exact ⟨(), by
      simp only [InstMsg.inRange, B64, Bool.and_eq_true, decide_eq_true_eq]; exact hr, _, _, ⟨o, h, rfl, rfl⟩, rfl, rfl⟩

/-- C78: anybody can deploy a factory. -/
theorem C78_factory_iff {c : Chain} (hl : c.Lawful) {w : World} (hw : Reachable c w) {u : Addr} (hu : c.IsUser u)
    {adm : Option Str} {id : Nat} (hk : c.codes id = some .factory) {pc tc : Nat} (hr : pc < 2 ^ 64 ∧ tc < 2 ^ 64)
    {funds : List Coin} (adv : Adv) :
    (∃ gas w', runTx c adv gas w u (.inst adm id (.factory pc tc) funds) = .ok w') ↔
      (∃ v, moveCoins w u (c.addrOf w.next) funds = .ok v) ∧ ∃ a, AdminIs c adm a := by
  constructor
  · rintro ⟨gas, w', h⟩
    obtain ⟨_, _, h2⟩ := (inst_tx hl hw hk (fun adv n => call_factory hr _ u adv n)).1 h
    obtain ⟨a, ha, _⟩ := h2.here
    obtain ⟨v, hv, _⟩ := h2.coins
    exact ⟨⟨v, hv⟩, ⟨a, ha⟩⟩
  · rintro ⟨hv, ha⟩
    obtain ⟨_, b, hb, _⟩ := validate_eq_ok.mp hu.2
    obtain ⟨w', h⟩ := (inst_tx hl hw hk (fun adv n => call_factory hr _ u adv n) (gas := 0) (w' := w)).2 hv ha
      ⟨_, b, hb, rfl⟩
    exact ⟨1, w', h⟩

/-- C78: the deployer owns the new factory; it uses the requested codes, knows no native coin and lists no pair. -/
theorem C78_factory_effect {c : Chain} (hl : c.Lawful) {w w' : World} (hw : Reachable c w) {u : Addr} (hu : c.IsUser u)
    {adm : Option Str} {id : Nat} (hk : c.codes id = some .factory) {pc tc : Nat} {funds : List Coin} {adv : Adv}
    {gas : Nat} (h : runTx c adv gas w u (.inst adm id (.factory pc tc) funds) = .ok w') :
    ∃ s, Deploys c w w' u adm funds (.factory s) ∧ s.HasDesk c ⟨u, pc, tc, fun _ => none⟩ ∧
      Factory.queryConfig c.api s = .ok (u, pc, tc) ∧ (∀ as, ∃ e, Factory.queryPair c.api s as = .error e) ∧
      ∀ limit, Factory.queryPairs c.api s none limit = .ok [] := by
  have hr : pc < 2 ^ 64 ∧ tc < 2 ^ 64 := by
    obtain ⟨n, h⟩ := runTx_inv h
    obtain ⟨_, _, _, _, h1, _⟩ := run_cons_inv h
    obtain ⟨_, _, _, _, _, _, h4, _⟩ := (inst_step hl hw.contractsAt hk).mp h1
    simp only [callInstantiate, bind_eq_ok, require_eq_ok] at h4
    obtain ⟨_, h4, _⟩ := h4
    simpa [InstMsg.inRange, B64] using h4
  obtain ⟨_, ⟨o, h1, rfl⟩, h2⟩ := (inst_tx hl hw hk (fun adv n => call_factory hr _ u adv n)).1 h
  obtain ⟨_, b, hb, hb'⟩ := validate_eq_ok.mp hu.2
  rw [h1] at hb
  cases hb
  refine ⟨_, h2, ⟨hb', h1, rfl, rfl, rfl⟩, ?_, fun as => ?_, fun limit => ?_⟩
  · simp only [Factory.queryConfig, Api.humanize, hb']; rfl
  · cases hq : Factory.queryPair c.api _ as with
    | error e => exact ⟨e, rfl⟩
    | ok p =>
      simp only [Factory.queryPair, bind_eq_ok, okOr_eq_ok] at hq
      obtain ⟨_, _, _, _, _, hq, _⟩ := hq
      cases hq
  · simp only [Factory.queryPairs, Factory.readPairs, bind_eq_ok, pure_eq_ok]
    exact ⟨none, rfl, by simp [Factory.rangeFrom, Factory.calcRangeStart, Factory.toNormalAll]⟩

private theorem call_router {c : Chain} (f : Str) (me u : Addr) (adv : Adv) (n : Nat) (s : CState) (gs : List Frame) :
    callInstantiate c adv n me u .router (.router f) = .ok (s, gs) ↔
      (∃ b, c.api.canon f = some b ∧ s = .router ⟨b⟩) ∧ gs = [] := by
  simp only [callInstantiate, Router.instantiate, bind_eq_ok, require_eq_ok, pure_eq_ok, Prod.mk.injEq, Prod.exists,
    canonicalize_eq_ok]
  constructor
  · rintro ⟨_, _, _, _, ⟨o, h, rfl, rfl⟩, rfl, rfl⟩; exact ⟨⟨o, h, rfl⟩, rfl⟩
  · rintro ⟨⟨o, h, rfl⟩, rfl⟩
    exact ⟨(), rfl, _, _, ⟨o, h, rfl, rfl⟩, rfl, rfl⟩

/-- C78: a router can be deployed for any address, whether or not a factory is there. -/
theorem C78_router_iff {c : Chain} (hl : c.Lawful) {w : World} (hw : Reachable c w) (u : Addr) {adm : Option Str} {id : Nat}
    (hk : c.codes id = some .router) (f : Str) {funds : List Coin} (adv : Adv) :
    (∃ gas w', runTx c adv gas w u (.inst adm id (.router f) funds) = .ok w') ↔
      (∃ v, moveCoins w u (c.addrOf w.next) funds = .ok v) ∧ (∃ a, AdminIs c adm a) ∧ ∃ b, c.api.canon f = some b := by
  constructor
  · rintro ⟨gas, w', h⟩
    obtain ⟨_, ⟨b, hb, _⟩, h2⟩ := (inst_tx hl hw hk (fun adv n => call_router f _ u adv n)).1 h
    obtain ⟨a, ha, _⟩ := h2.here
    obtain ⟨v, hv, _⟩ := h2.coins
    exact ⟨⟨v, hv⟩, ⟨a, ha⟩, b, hb⟩
  · rintro ⟨hv, ha, b, hb⟩
    obtain ⟨w', h⟩ := (inst_tx hl hw hk (fun adv n => call_router f _ u adv n) (gas := 0) (w' := w)).2 hv ha
      ⟨_, b, hb, rfl⟩
    exact ⟨1, w', h⟩

/-- C78: the new router trades with the pairs of the factory it was deployed for. -/
theorem C78_router_effect {c : Chain} (hl : c.Lawful) {w w' : World} (hw : Reachable c w) {u : Addr} {adm : Option Str}
    {id : Nat} (hk : c.codes id = some .router) {f : Str} {funds : List Coin} {adv : Adv} {gas : Nat}
    (h : runTx c adv gas w u (.inst adm id (.router f) funds) = .ok w') :
    ∃ s, Deploys c w w' u adm funds (.router s) ∧ Router.queryConfig c.api s = c.api.resolve f := by
  obtain ⟨_, ⟨b, hb, rfl⟩, h2⟩ := (inst_tx hl hw hk (fun adv n => call_router f _ u adv n)).1 h
  refine ⟨_, h2, ?_⟩
  simp only [Router.queryConfig, Api.resolve, Api.canonicalize, hb, okOr, ok_bind]

/-! ## Pairs -/

/-- The asset names an address or a coin. -/
def AssetInfo.Named (c : Chain) : AssetInfo → Prop
  | .native _ => True
  | .token t => ∃ b, c.api.canon t = some b

private theorem toRaw_iff {c : Chain} {i : AssetInfo} : (∃ r, i.toRaw c.api = .ok r) ↔ i.Named c := by
  cases i with
  | native d => simp [AssetInfo.toRaw, AssetInfo.Named]
  | token t => simp [AssetInfo.toRaw, AssetInfo.Named]

/-- What a pair deployed without a factory leaves behind: the pair and its LP token. -/
structure PairDeployed (c : Chain) (w w' : World) (u : Addr) (adm : Option Str) (funds : List Coin)
    (as : AssetInfo × AssetInfo) (d : Nat × Nat) (req : Requirements) : Prop where
  free : w.contracts (c.addrOf w.next) = none ∧ w.contracts (c.addrOf (w.next + 1)) = none
  pair : ∃ a p, AdminIs c adm a ∧ w'.contracts (c.addrOf w.next) = some ⟨a, .pair p⟩ ∧
    as.1.toRaw c.api = .ok p.assetInfos.1 ∧ as.2.toRaw c.api = .ok p.assetInfos.2 ∧ p.assetDecimals = d ∧
    p.requirements = req ∧ c.api.canon (c.addrOf w.next) = some p.contractAddr ∧
    c.api.canon (c.addrOf (w.next + 1)) = some p.liquidityToken
  token : ∃ s, w'.contracts (c.addrOf (w.next + 1)) = some ⟨none, .token s⟩ ∧ s.name = asc "halo liquidity token" ∧
    s.symbol = asc "uLP" ∧ s.decimals = 6 ∧ s.book.supply = 0 ∧ s.book.minter = some (c.addrOf w.next, none) ∧
    (∀ x, s.book.bal x = 0) ∧ ∀ o sp, s.book.allow o sp = none
  others : ∀ b, b ≠ c.addrOf w.next → b ≠ c.addrOf (w.next + 1) → w'.contracts b = w.contracts b
  coins : ∃ w1, moveCoins w u (c.addrOf w.next) funds = .ok w1 ∧ w'.bank = w1.bank
  next : w'.next = w.next + 2
  block : w'.block = w.block

private theorem lp_deployable {c : Chain} (hl : c.Lawful) (n : Nat) : (Pair.lpInst (c.addrOf n)).Deployable c.api.Valid where
  described := by
    change TokenMeta Pair.lpName Pair.lpSymbol 6
    exact ⟨by decide, by decide, by decide, by decide, by decide, by decide⟩
  holders := fun _ h => by cases h
  once := List.Pairwise.nil
  fits := by
    change 0 < 2 ^ 128
    norm_num
  minter := by
    rintro _ ⟨⟩
    exact validate_of_resolve (hl.resolve_addr n)
  cap := by rintro _ _ ⟨⟩ h; cases h

private theorem pair_run {c : Chain} (hl : c.Lawful) {w : World} (hw : Reachable c w) {u : Addr} {adm : Option Str}
    {id : Nat} (hk : c.codes id = some .pair) {as : AssetInfo × AssetInfo} {tc : Nat} (htc : c.codes tc = some .token)
    {d : Nat × Nat} {req : Requirements} {funds : List Coin} {adv : Adv} {gas : Nat} {w' : World} :
    (runTx c adv gas w u (.inst adm id (.pair as tc d req) funds) = .ok w' →
      (InstMsg.pair as tc d req).inRange = true ∧ PairDeployed c w w' u adm funds as d req) ∧
    ((InstMsg.pair as tc d req).inRange = true → (∃ v, moveCoins w u (c.addrOf w.next) funds = .ok v) →
      (∃ a, AdminIs c adm a) → as.1.Named c → as.2.Named c →
      ∃ w', runTx c adv 3 w u (.inst adm id (.pair as tc d req) funds) = .ok w') := by
  obtain ⟨ca, hca, _⟩ := hl.addr_valid w.next
  obtain ⟨lb, hlb, _⟩ := hl.addr_valid (w.next + 1)
  have hpl : c.addrOf w.next ≠ c.addrOf (w.next + 1) := fun e => by have := hl.addr_inj _ _ e; omega
  have hci : ∀ adv n s gs, callInstantiate c adv n (c.addrOf w.next) u .pair (.pair as tc d req) = .ok (s, gs) ↔
      (InstMsg.pair as tc d req).inRange = true ∧ (∃ r0 r1, as.1.toRaw c.api = .ok r0 ∧ as.2.toRaw c.api = .ok r1 ∧
        s = .pair ⟨(r0, r1), ca, [], d, req⟩) ∧
      gs = [.msg (c.addrOf w.next) ⟨.inst none tc (.token (Pair.lpInst (c.addrOf w.next))) [], some 1⟩] := by
    intro adv n s gs
    simp only [callInstantiate, Pair.instantiate, bind_eq_ok, require_eq_ok, pure_eq_ok, Prod.mk.injEq, Prod.exists,
      canonicalize_eq_ok]
    constructor
    · rintro ⟨_, h, _, _, ⟨b, hb, r0, h0, r1, h1, rfl, rfl⟩, rfl, rfl⟩
      rw [hca] at hb
      cases hb
      exact ⟨h, ⟨r0, r1, h0, h1, rfl⟩, rfl⟩
    · rintro ⟨h, ⟨r0, r1, h0, h1, rfl⟩, rfl⟩
      exact ⟨(), h, _, _, ⟨ca, hca, r0, h0, r1, h1, rfl, rfl⟩, rfl, rfl⟩
  -- the three steps after the coins have been moved
  have key : ∀ (v : World) (a : Option Addr) (r0 r1 : AssetInfoRaw), moveCoins w u (c.addrOf w.next) funds = .ok v →
      AdminIs c adm a → as.1.toRaw c.api = .ok r0 → as.2.toRaw c.api = .ok r1 → ∃ v3,
        (∀ adv n, run c adv (n + 2) (({ v with next := w.next + 1 } : World).setContract (c.addrOf w.next)
          ⟨a, .pair ⟨(r0, r1), ca, [], d, req⟩⟩)
          [.msg (c.addrOf w.next) ⟨.inst none tc (.token (Pair.lpInst (c.addrOf w.next))) [], some 1⟩] = .ok (n, v3)) ∧
        PairDeployed c w v3 u adm funds as d req := by
    intro v a r0 r1 hv ha h0 h1
    have hmv := moveCoins_inv hv
    generalize hv1 : World.setContract _ _ _ = v1
    have p1 : v1.contracts (c.addrOf w.next) = some ⟨a, .pair ⟨(r0, r1), ca, [], d, req⟩⟩ := by
      rw [← hv1]; exact setContract_self _ _ _
    have o1 : ∀ b, b ≠ c.addrOf w.next → v1.contracts b = w.contracts b := fun b hb => by
      rw [← hv1, ← hmv.contracts]; exact setContract_ne _ _ hb
    have n1 : v1.next = w.next + 1 := by rw [← hv1]; rfl
    have b1 : v1.bank = v.bank := by rw [← hv1]; rfl
    have t1 : v1.block = w.block := by rw [← hv1, ← hmv.block]; rfl
    clear hv1
    have hat : ContractsAt c v1 := by
      intro b k hb
      rw [n1]
      by_cases e : b = c.addrOf w.next
      · exact ⟨w.next, by omega, e⟩
      · rw [o1 _ e] at hb
        obtain ⟨j, hj, hj'⟩ := hw.contractsAt b k hb
        exact ⟨j, by omega, hj'⟩
    let ts : TokenState := ⟨Pair.lpName, Pair.lpSymbol, 6, 0, some ⟨c.addrOf w.next, none⟩, [], []⟩
    have hts : Token.instantiate c.api (Pair.lpInst (c.addrOf w.next)) = .ok ts :=
      token_inst_iff.mpr ⟨lp_deployable hl _, rfl⟩
    let v2 : World := ({ v1 with next := v1.next + 1 } : World).setContract (c.addrOf v1.next) ⟨none, .token ts⟩
    have s2 : ∀ adv n, step c adv n v1
        (.msg (c.addrOf w.next) ⟨.inst none tc (.token (Pair.lpInst (c.addrOf w.next))) [], some 1⟩) =
        .ok (v2, [.reply (c.addrOf w.next) 1 (some (c.addrOf (w.next + 1)))]) := by
      intro adv n
      refine (inst_step hl hat htc).mpr ⟨v1, none, .token ts, [], moveCoins_nil.mpr rfl, rfl,
        (call_token rfl _ _ _ _ _ _).mpr ⟨⟨ts, hts, rfl⟩, rfl⟩, rfl, ?_⟩
      rw [n1]; rfl
    have p2 : v2.contracts (c.addrOf (w.next + 1)) = some ⟨none, .token ts⟩ := by
      rw [← n1]; exact setContract_self _ _ _
    have o2 : ∀ b, b ≠ c.addrOf (w.next + 1) → v2.contracts b = v1.contracts b := fun b hb => by
      rw [← n1] at hb; exact setContract_ne _ _ hb
    let pi : PairInfoRaw := ⟨(r0, r1), ca, lb, d, req⟩
    let v3 : World := v2.setState (c.addrOf w.next) a (.pair pi)
    have s3 : ∀ adv n, step c adv n v2 (.reply (c.addrOf w.next) 1 (some (c.addrOf (w.next + 1)))) = .ok (v3, []) := by
      intro adv n
      simp only [step, (o2 _ hpl).trans p1, bind_eq_ok, pure_eq_ok, Prod.exists]
      refine ⟨pi, { events := [.liquidityToken (c.addrOf (w.next + 1))] }, ?_, rfl⟩
      simp only [Pair.reply, bind_eq_ok, pure_eq_ok, okOr_eq_ok, canonicalize_eq_ok]
      exact ⟨_, rfl, lb, hlb, rfl⟩
    refine ⟨v3, fun adv n => run_cons_of (s2 adv _) (run_cons_of (s3 adv _) run_nil), ?_⟩
    refine ⟨⟨fresh_addr hl hw.contractsAt (Nat.le_refl _), fresh_addr hl hw.contractsAt (by omega)⟩,
      ⟨a, pi, ha, setContract_self _ _ _, h0, h1, rfl, rfl, hca, hlb⟩,
      ⟨ts, (setContract_ne _ _ hpl.symm).trans p2,
        (by decide : Pair.lpName = asc "halo liquidity token"), (by decide : Pair.lpSymbol = asc "uLP"), rfl, rfl, rfl, fun _ => rfl, fun _ _ => rfl⟩,
      fun b hb hb' => ?_, ⟨v, hv, b1⟩, ?_, t1⟩
    · exact (setContract_ne _ _ hb).trans ((o2 _ hb').trans (o1 _ hb))
    · change v1.next + 1 = _
      omega
  constructor
  · intro h
    obtain ⟨n, h⟩ := runTx_inv h
    obtain ⟨k', v, fs, rfl, h1, h⟩ := run_cons_inv h
    obtain ⟨v1, a, s, gs, h2, h3, h4, rfl, rfl⟩ := (inst_step hl hw.contractsAt hk).mp h1
    obtain ⟨hr, ⟨r0, r1, h5, h6, rfl⟩, rfl⟩ := (hci _ _ _ _).mp h4
    obtain ⟨v3, hrun, hd⟩ := key v1 a r0 r1 h2 h3 h5 h6
    simp only [replyFrame, List.append_nil] at h
    obtain ⟨k1, _, _, rfl, g1, g2⟩ := run_cons_inv h
    obtain ⟨k2, _, _, rfl, _, _⟩ : ∃ k2 x y, k1 = k2 + 1 ∧ x = () ∧ y = () := by
      cases k1 with
      | succ k => exact ⟨k, (), (), rfl, rfl, rfl⟩
      | zero =>
        exfalso
        obtain ⟨_, _, _, _, _, _, q4, _, rfl⟩ := (inst_step hl (id := tc) (k := .token) (by
          intro b k hb
          simp only [World.setContract] at hb ⊢
          split at hb
          · rename_i e; exact ⟨w.next, by simp, e⟩
          · rw [(moveCoins_inv h2).contracts] at hb
            obtain ⟨j, hj, hj'⟩ := hw.contractsAt b k hb
            exact ⟨j, by simp; omega, hj'⟩) htc).mp g1
        obtain ⟨_, rfl⟩ := (call_token rfl _ _ _ _ _ _).mp q4
        simp only [replyFrame, List.append_nil, List.nil_append, run] at g2
        cases g2
    rw [hrun] at h
    cases h
    exact ⟨hr, hd⟩
  · rintro hr ⟨v, hv⟩ ⟨a, ha⟩ h0 h1
    obtain ⟨r0, h0⟩ := toRaw_iff.mpr h0
    obtain ⟨r1, h1⟩ := toRaw_iff.mpr h1
    obtain ⟨v3, hrun, _⟩ := key v a r0 r1 hv ha h0 h1
    refine ⟨v3, ?_⟩
    have hs := (inst_step hl hw.contractsAt hk (rid := none) (adv := adv) (n := 2)).mpr
      ⟨v, a, _, _, hv, ha, (hci _ _ _ _).mpr ⟨hr, ⟨r0, r1, h0, h1, rfl⟩, rfl⟩, rfl, rfl⟩
    have := run_cons_of (fs := []) hs (hrun adv 0)
    simp only [runTx, plain, this, ok_bind]
    rfl

/-- C78: anybody can deploy a pair of any two named assets without a factory: whether the assets exist, differ or have the
declared decimals is not checked. -/
theorem C78_pair_iff {c : Chain} (hl : c.Lawful) {w : World} (hw : Reachable c w) (u : Addr) {adm : Option Str}
    {id : Nat} (hk : c.codes id = some .pair) {as : AssetInfo × AssetInfo} {tc : Nat} (htc : c.codes tc = some .token)
    {d : Nat × Nat} {req : Requirements} (hr : (InstMsg.pair as tc d req).inRange = true) {funds : List Coin} (adv : Adv) :
    (∃ gas w', runTx c adv gas w u (.inst adm id (.pair as tc d req) funds) = .ok w') ↔
      (∃ v, moveCoins w u (c.addrOf w.next) funds = .ok v) ∧ (∃ a, AdminIs c adm a) ∧ as.1.Named c ∧ as.2.Named c := by
  constructor
  · rintro ⟨gas, w', h⟩
    obtain ⟨_, hd⟩ := (pair_run hl hw hk htc).1 h
    obtain ⟨a, p, ha, _, h0, h1, _⟩ := hd.pair
    obtain ⟨v, hv, _⟩ := hd.coins
    exact ⟨⟨v, hv⟩, ⟨a, ha⟩, toRaw_iff.mp ⟨_, h0⟩, toRaw_iff.mp ⟨_, h1⟩⟩
  · rintro ⟨hv, ha, h0, h1⟩
    obtain ⟨w', h⟩ := (pair_run hl hw hk htc (gas := 0) (w' := w)).2 hr hv ha h0 h1
    exact ⟨3, w', h⟩

/-- C78: what a pair deployed without a factory leaves behind. -/
theorem C78_pair_effect {c : Chain} (hl : c.Lawful) {w w' : World} (hw : Reachable c w) {u : Addr} {adm : Option Str}
    {id : Nat} (hk : c.codes id = some .pair) {as : AssetInfo × AssetInfo} {tc : Nat} (htc : c.codes tc = some .token)
    {d : Nat × Nat} {req : Requirements} {funds : List Coin} {adv : Adv} {gas : Nat}
    (h : runTx c adv gas w u (.inst adm id (.pair as tc d req) funds) = .ok w') :
    PairDeployed c w w' u adm funds as d req := ((pair_run hl hw hk htc).1 h).2

/-- C78: the four codes accept only their own instantiation message. -/
theorem C78_own_message {c : Chain} {w w' : World} {u : Addr} {adm : Option Str} {id : Nat} {k : Kind}
    (hk : c.codes id = some k) (ho : k ≠ .other) {m : InstMsg} {funds : List Coin} {adv : Adv} {gas : Nat}
    (h : runTx c adv gas w u (.inst adm id m funds) = .ok w') :
    (∃ t, k = .token ∧ m = .token t) ∨ (∃ as tc d r, k = .pair ∧ m = .pair as tc d r) ∨
      (∃ p t, k = .factory ∧ m = .factory p t) ∨ ∃ f, k = .router ∧ m = .router f := by
  obtain ⟨n, h⟩ := runTx_inv h
  obtain ⟨k', v, fs, rfl, h1, h⟩ := run_cons_inv h
  simp only [step, plain, bind_eq_ok, require_eq_ok, pure_eq_ok, Prod.exists, okOr_eq_ok, hk, Option.some.injEq,
    exists_eq_left'] at h1
  obtain ⟨_, _, _, _, _, _, _, _, h1, _⟩ := h1
  cases k <;> cases m <;> simp [callInstantiate, bind_eq_ok] at h1 ho ⊢

namespace Demo

/-- A token with two holders. -/
def shiny (cap : Nat) : TokenInst :=
  ⟨asc "Shiny", asc "SHI-ny", 18, [(user, 100), (user2, 50)], some ⟨user2, some cap⟩⟩

theorem shiny_ok (cap : Nat) : (shiny cap).Deployable api.Valid ↔ 150 ≤ cap := by
  constructor
  · intro h; exact h.cap ⟨user2, some cap⟩ cap rfl rfl
  · intro h
    refine ⟨?_, fun e _ => validate_any e.1, ?_, ?_, fun r _ => validate_any _, ?_⟩
    · change TokenMeta (asc "Shiny") (asc "SHI-ny") 18
      exact ⟨by decide, by decide, by decide, by decide, by decide, by decide⟩
    · change List.Pairwise _ [(user, 100), (user2, 50)]
      simp [user, user2]
    · change 150 < 2 ^ 128
      norm_num
    · rintro r k ⟨⟩ ⟨⟩
      exact h

/-- It can be deployed with a cap of 150, with 3 coins sent along, but not with a cap of 149. -/
example : (∃ gas w', runTx chain idle gas deployed user (.inst none 1 (.token (shiny 150)) [⟨[117], 3⟩]) = .ok w') ∧
    ¬ ∃ gas w', runTx chain idle gas deployed user (.inst none 1 (.token (shiny 149)) []) = .ok w' := by
  constructor
  · refine (C78_token_iff lawful deployed_reachable user rfl (by decide) idle).mpr
      ⟨⟨_, worldOf_eq (by decide +kernel)⟩, ⟨none, rfl⟩, (shiny_ok 150).mpr (Nat.le_refl _)⟩
  · rw [C78_token_iff lawful deployed_reachable user rfl (by decide) idle]
    rintro ⟨_, _, h⟩
    exact absurd ((shiny_ok 149).mp h) (by norm_num)

/-- The opening balances. -/
example : ∃ w' s, runTx chain idle 20 deployed user (.inst none 1 (.token (shiny 150)) []) = .ok w' ∧
    Deploys chain deployed w' user none [] (.token s) ∧ s.book.bal user = 100 ∧ s.book.bal user2 = 50 ∧
    s.book.bal fac = 0 ∧ s.book.supply = 150 := by
  have h := worldOf_eq (r := runTx chain idle 20 deployed user (.inst none 1 (.token (shiny 150)) [])) (by decide +kernel)
  obtain ⟨s, h1, _, _, _, h2⟩ := C78_token_effect lawful deployed_reachable rfl h
  exact ⟨_, s, h, h1, h2.listed (user, 100) (by simp [shiny]), h2.listed (user2, 50) (by simp [shiny]),
    h2.unlisted fac (by simp only [shiny, List.forall_mem_cons]; decide), h2.supply⟩

/-- `user` deploys a second factory and owns it. -/
example : ∃ w' s, runTx chain idle 20 deployed user (.inst none 3 (.factory 2 1) []) = .ok w' ∧
    Deploys chain deployed w' user none [] (.factory s) ∧ Factory.queryConfig api s = .ok (user, 2, 1) := by
  have h := worldOf_eq (r := runTx chain idle 20 deployed user (.inst none 3 (.factory 2 1) [])) (by decide +kernel)
  obtain ⟨s, h1, _, h2, _⟩ := C78_factory_effect lawful deployed_reachable isUser_user rfl h
  exact ⟨_, s, h, h1, h2⟩

example : ∃ gas w', runTx chain idle gas deployed user (.inst none 3 (.factory 2 1) []) = .ok w' :=
  (C78_factory_iff lawful deployed_reachable isUser_user rfl (by norm_num) idle).mpr
    ⟨⟨_, worldOf_eq (by decide +kernel)⟩, ⟨none, rfl⟩⟩

/-- A router for an address where nothing is deployed. -/
example : ∃ gas w', runTx chain idle gas deployed user (.inst none 4 (.router [9, 9]) []) = .ok w' :=
  (C78_router_iff lawful deployed_reachable user rfl _ idle).mpr
    ⟨⟨_, worldOf_eq (by decide +kernel)⟩, ⟨none, rfl⟩, ⟨_, rfl⟩⟩

example : ∃ w' s, runTx chain idle 20 deployed user (.inst none 4 (.router fac) []) = .ok w' ∧
    Deploys chain deployed w' user none [] (.router s) ∧ Router.queryConfig api s = .ok fac := by
  have h := worldOf_eq (r := runTx chain idle 20 deployed user (.inst none 4 (.router fac) [])) (by decide +kernel)
  obtain ⟨s, h1, h2⟩ := C78_router_effect lawful deployed_reachable rfl h
  exact ⟨_, s, h, h1, h2⟩

/-- A pair of one asset with itself, with wrong decimals: no factory, no checks. -/
def twin : InstMsg := .pair (.token tA, .token tA) 1 (200, 0) ⟨[], 0, 0⟩

example : ∃ gas w', runTx chain idle gas deployed user (.inst (some user) 2 twin []) = .ok w' :=
  (C78_pair_iff lawful deployed_reachable user rfl rfl (by decide) idle).mpr
    ⟨⟨_, worldOf_eq (by decide +kernel)⟩, ⟨some user, user, rfl, rfl⟩, ⟨_, rfl⟩, ⟨_, rfl⟩⟩

example : ∃ w', runTx chain idle 20 deployed user (.inst (some user) 2 twin []) = .ok w' ∧
    PairDeployed chain deployed w' user (some user) [] (.token tA, .token tA) (200, 0) ⟨[], 0, 0⟩ := by
  have h := worldOf_eq (r := runTx chain idle 20 deployed user (.inst (some user) 2 twin [])) (by decide +kernel)
  exact ⟨_, h, C78_pair_effect lawful deployed_reachable rfl rfl h⟩

/-- The token code does not take a router's message. -/
example : isOk (runTx chain idle 20 deployed user (.inst none 1 (.router fac) [])) = false := by
  cases h : runTx chain idle 20 deployed user (.inst none 1 (.router fac) []) with
  | error => rfl
  | ok w' => rcases C78_own_message rfl (by decide) h with ⟨_, h⟩ | ⟨_, _, _, _, h⟩ | ⟨_, _, h⟩ | ⟨_, h⟩ <;> simp at h

end Demo

end Halo
