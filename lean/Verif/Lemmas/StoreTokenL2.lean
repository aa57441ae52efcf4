import Verif.Lemmas.StoreTokenL
/-! # halo-token over raw storage: instantiation and queries -/

namespace Halo
namespace StoreL
open Codec QueryCodec

variable {σ : Store} {s : TokenState}

/-! ## Instantiation -/

/-- Before `TOKEN_INFO` is written: version and balances. -/
def preVal (b : AMap Addr Nat) : Slot → Option Bytes
  | .item ns => if ns = asc "contract_info" then some (versionJ Token.contractName (asc "0.1.0")).print else none
  | .entry ns a => if ns = asc "balance" then (b.get a).map fun n => (u128J n).print else none
  | .entry2 _ _ _ => none

theorem pre_nil : Holds (setVersion [] Token.contractName) (preVal []) := by
  refine Holds.nil.set version_ok fun t => ?_
  cases t with
  | item ns => by_cases e : ns = asc "contract_info" <;> simp [preVal, e]
  | entry ns a => simp [preVal]
  | entry2 ns a b => simp [preVal]

theorem pre_set {b : AMap Addr Nat} (h : Holds σ (preVal b)) (a : Addr) (n : Nat) :
    Holds (saveAt σ (Token.balKey a) (u128J n)) (preVal (b.set a n)) := by
  refine h.set (bal_ok a) fun t => ?_
  cases t with
  | item ns => simp [preVal]
  | entry ns c =>
    by_cases e : ns = asc "balance"
    · subst e
      simp only [preVal, if_true, AMap.get_set, Slot.entry.injEq, true_and]
      split <;> rfl
    · simp [preVal, e]
  | entry2 ns a b => simp [preVal]

theorem loop_sim (api : Api) : ∀ (l : List (Str × Nat)) (σ : Store) (b : AMap Addr Nat) (t : Nat), Holds σ (preVal b) →
    Sim L (fun x y => Holds x.1 (preVal y.1) ∧ x.2 = y.2) (Token.createLoopS api l σ t) (Token.createLoop api l b t)
  | [], _, _, _, h => .ok ⟨h, rfl⟩
  | (a, n) :: l, σ, b, t, h => Sim.same fun ad _ => Sim.same fun t' _ => loop_sim api l _ _ t' (pre_set h ad n)

theorem save_info {b : AMap Addr Nat} (h : Holds σ (preVal b)) (s : TokenState) (hb : s.balances = b) (ha : s.allowances = []) :
    Holds (saveAt σ Token.infoKey (tokenRecJ (recOf s))) (tokenVal s) := by
  refine h.set info_ok fun t => ?_
  cases t with
  | item ns =>
    by_cases e : ns = Token.infoKey
    · simp [tokenVal, e]
    · simp [tokenVal, preVal, e]
  | entry ns a => simp [tokenVal, preVal, hb]
  | entry2 ns a b => simp [tokenVal, preVal, ha]

theorem token_inst_sim (api : Api) (m : TokenInst) :
    Sim L (fun σ s => Holds σ (tokenVal s)) (Token.instantiateS api m) (Token.instantiate api m) := by
  unfold Token.instantiateS Token.instantiate Token.createAccounts
  refine Sim.same fun _ _ => ?_
  rw [bind_assoc]
  refine Sim.same fun _ _ => ?_
  refine (loop_sim api m.initialBalances _ _ 0 pre_nil).bind ?_
  rintro ⟨σ1, t⟩ ⟨b, t'⟩ ⟨h, rfl⟩
  have fin : ∀ mint : Option MinterData, Sim L (fun σ s => Holds σ (tokenVal s))
      (pure (saveAt σ1 Token.infoKey (tokenRecJ { name := m.name, symbol := m.symbol, decimals := m.decimals, totalSupply := t, mint })))
      (pure { name := m.name, symbol := m.symbol, decimals := m.decimals, totalSupply := t, mint, balances := b, allowances := [] }) :=
    fun mint => .ok (save_info h
      { name := m.name, symbol := m.symbol, decimals := m.decimals, totalSupply := t, mint, balances := b, allowances := [] } rfl rfl)
  have fin2 : Sim L (fun σ s => Holds σ (tokenVal s))
      ((match m.mint with
        | some r => do
          let a ← api.validate r.minter
          pure (some { minter := a, cap := r.cap : MinterData })
        | none => pure none) >>= fun mint =>
          pure (saveAt σ1 Token.infoKey (tokenRecJ { name := m.name, symbol := m.symbol, decimals := m.decimals, totalSupply := t, mint })))
      ((match m.mint with
        | some r => do
          let a ← api.validate r.minter
          pure (some { minter := a, cap := r.cap : MinterData })
        | none => pure none) >>= fun mint =>
          (pure { name := m.name, symbol := m.symbol, decimals := m.decimals, totalSupply := t, mint, balances := b, allowances := [] } : R TokenState)) :=
    Sim.same fun mint _ => fin mint
  cases hc : Token.getCapInst m with
  | none =>
    cases hm : m.mint with
    | none => exact fin none
    | some r => rw [hm] at fin2; simpa [hc] using fin2
  | some l =>
    refine Sim.same fun _ _ => ?_
    cases hm : m.mint with
    | none => rw [hm] at fin2; simpa using fin2
    | some r => rw [hm] at fin2; simpa using fin2

/-! ## Listings -/

/-- What a listing returns after a key. -/
def after {V : Type} (l : List (Bytes × V)) (start : Option Bytes) : List (Bytes × V) :=
  match start with
  | none => l
  | some k => l.filter fun e => bLt k e.1

theorem mem_after {V : Type} {l : List (Bytes × V)} {start : Option Bytes} {e : Bytes × V} :
    e ∈ after l start ↔ e ∈ l ∧ ∀ k, start = some k → bLt k e.1 = true := by
  cases start with
  | none => exact ⟨fun h => ⟨h, fun _ h => nomatch h⟩, fun h => h.1⟩
  | some k =>
    unfold after
    rw [List.mem_filter]
    exact and_congr_right fun _ => ⟨fun h k' hk => by cases hk; exact h, fun h => h k rfl⟩

theorem after_sorted {V : Type} {l : List (Bytes × V)} (hl : SortedKeys l) (start : Option Bytes) : SortedKeys (after l start) := by
  cases start with
  | none => exact hl
  | some k => exact List.Pairwise.filter _ hl

/-- A raw range is the listing of the typed map. -/
theorem under_eq {V : Type} {σ : Store} (hσ : SortedKeys σ) {p : Bytes} (hp : Opens p) {l : List (Bytes × V)} (hl : SortedKeys l)
    (enc : V → Bytes) (h : ∀ k v, (p ++ k, v) ∈ σ ↔ ∃ x, (k, x) ∈ l ∧ enc x = v) (start : Option Bytes) :
    σ.under p start = (after l start).map fun e => (e.1, enc e.2) := by
  refine sorted_ext (under_sorted hσ hp start) ?_ ?_
  · unfold SortedKeys
    rw [List.pairwise_map]
    exact after_sorted hl start
  · rintro ⟨k, v⟩
    rw [mem_under hp, h, List.mem_map]
    constructor
    · rintro ⟨⟨x, hx, rfl⟩, hs⟩
      exact ⟨(k, x), mem_after.mpr ⟨hx, hs⟩, rfl⟩
    · rintro ⟨⟨k', x⟩, hx, e⟩
      cases e
      obtain ⟨h1, h2⟩ := mem_after.mp hx
      exact ⟨⟨x, h1, rfl⟩, h2⟩

theorem readAll_map {α : Type} {f : Json → Option α} {j : α → Json} : ∀ {l : List (Bytes × α)}, (∀ e ∈ l, f (j e.2) = some e.2) →
    readAll f (l.map fun e => (e.1, (j e.2).print)) = .ok l
  | [], _ => rfl
  | (k, x) :: t, h => by
    have ih := readAll_map (fun e he => h e (List.mem_cons_of_mem _ he)) (l := t)
    show (okOr ((Json.parse (j x).print).bind f) .parse >>= _) = _
    rw [Json.parse_print]
    show (okOr (f (j x)) .parse >>= _) = _
    rw [h (k, x) List.mem_cons_self]
    show (readAll f _ >>= _) = _
    rw [ih]; rfl

theorem TokRep.mem_bal (h : TokRep σ s) (a v : Bytes) :
    (lengthed (asc "balance") ++ a, v) ∈ σ ↔ ∃ n, (a, n) ∈ Token.ordered s.balances ∧ (u128J n).print = v := by
  rw [h.holds.mem]
  constructor
  · rintro ⟨t, hv, hk⟩
    have : t = .entry (asc "balance") a := Slot.key_inj (h.holds.dom t v hv) (bal_ok a) hk
    subst this
    simp only [tokenVal, if_true, Option.map_eq_some_iff] at hv
    obtain ⟨n, hn, hv⟩ := hv
    exact ⟨n, Token.mem_ordered.mpr hn, hv⟩
  · rintro ⟨n, hn, rfl⟩
    refine ⟨.entry (asc "balance") a, ?_, rfl⟩
    simp only [tokenVal, if_true, Token.mem_ordered.mp hn, Option.map_some]

theorem TokRep.mem_allow (h : TokRep σ s) {o : Addr} (ho : o.length ≤ 0xFFFF) (p v : Bytes) :
    ((lengthed (asc "allowance") ++ lengthed o) ++ p, v) ∈ σ ↔
      ∃ x, (p, x) ∈ Token.ordered (Token.grantsBy s o) ∧ (allowanceJ x).print = v := by
  rw [h.holds.mem, List.append_assoc]
  constructor
  · rintro ⟨t, hv, hk⟩
    have : t = .entry2 (asc "allowance") o p := Slot.key_inj (h.holds.dom t v hv) (allow_ok ho) hk
    subst this
    rw [allow_val, Option.map_eq_some_iff] at hv
    obtain ⟨n, hn, hv⟩ := hv
    exact ⟨n, Token.mem_ordered.mpr ((Token.get_grantsBy s o p).trans hn), hv⟩
  · rintro ⟨n, hn, rfl⟩
    refine ⟨.entry2 (asc "allowance") o p, ?_, rfl⟩
    rw [allow_val, ← Token.get_grantsBy, Token.mem_ordered.mp hn]; rfl

theorem TokRep.mem_spender (h : TokRep σ s) {p : Addr} (hp : p.length ≤ 0xFFFF) (o v : Bytes) :
    ((lengthed (asc "allowance_spender") ++ lengthed p) ++ o, v) ∈ σ ↔
      ∃ x, (o, x) ∈ Token.ordered (Token.grantsTo s p) ∧ (allowanceJ x).print = v := by
  rw [h.holds.mem, List.append_assoc]
  constructor
  · rintro ⟨t, hv, hk⟩
    have : t = .entry2 (asc "allowance_spender") p o := Slot.key_inj (h.holds.dom t v hv) (spender_ok hp) hk
    subst this
    rw [spender_val, Option.map_eq_some_iff] at hv
    obtain ⟨n, hn, hv⟩ := hv
    exact ⟨n, Token.mem_ordered.mpr ((Token.get_grantsTo s o p).trans hn), hv⟩
  · rintro ⟨n, hn, rfl⟩
    refine ⟨.entry2 (asc "allowance_spender") p o, ?_, rfl⟩
    rw [spender_val, ← Token.get_grantsTo, Token.mem_ordered.mp hn]; rfl

/-- Addresses do not end in the byte 255. -/
def Ends (api : Api) : Prop := ∀ a b, api.validate a = .ok b → ∀ q, b ≠ q ++ [255]

theorem opens_addr {ns o : Bytes} (h : ∀ q, o ≠ q ++ [255]) : Opens (lengthed ns ++ lengthed o) := by
  rcases List.eq_nil_or_concat o with rfl | ⟨q, b, rfl⟩
  · refine ⟨lengthed ns ++ [0], 0, ?_, by decide⟩
    rw [List.append_assoc]; rfl
  · rw [List.concat_eq_append] at h ⊢
    refine ⟨lengthed ns ++ (len16 (q ++ [b]).length ++ q), b, ?_, fun e => h q (by rw [e])⟩
    simp [lengthed]

theorem opens_balance : Opens (lengthed (asc "balance")) := ⟨[0, 7] ++ asc "balanc", 101, by decide, by decide⟩

theorem page_after {V : Type} (l : List (Str × V)) (start : Option Str) (limit : Option Nat) :
    Token.pageOf l start limit = (after l start).take (min (limit.getD 10) 30) := by
  cases start <;> rfl

theorem grant_readable (h : TokRep σ s) {l : AMap Addr Allowance} (hl : ∀ p x, l.get p = some x → ∃ k, s.allowances.get k = some x)
    (start : Option Bytes) (n : Nat) :
    ∀ e ∈ (after (Token.ordered l) start).take n, asAllowanceA (allowanceJ e.2) = some e.2 := by
  rintro ⟨p, x⟩ he
  have h1 := (mem_after.mp (List.mem_of_mem_take he)).1
  obtain ⟨k, hk⟩ := hl p x (Token.mem_ordered.mp h1)
  exact h.readable x hk

theorem token_answer_balance (h : TokRep σ s) (api : Api) (a : Str) : Token.answerS api σ (.balance a) = Token.answer api s (.balance a) := by
  show (api.validate a >>= _) = ((api.validate a >>= _) >>= _)
  rw [bind_assoc]
  refine bind_congr fun b => ?_
  rw [h.bal]; rfl

theorem token_answer_info (h : TokRep σ s) (api : Api) : Token.answerS api σ .tokenInfo = Token.answer api s .tokenInfo := by
  show (loadAt asTokenRec σ Token.infoKey >>= _) = _
  rw [h.info]; rfl

theorem token_answer_sim (h : TokRep σ s) {api : Api} (hs : Short L api) (hf : Ends api) (m : QueryMsg) :
    Sim L Eq (Token.answerS api σ m) (Token.answer api s m) := by
  have same : ∀ {x y : R Json}, x = y → Sim L Eq x y := fun e => e ▸ .rfl' _
  cases m with
  | balance a => exact same (token_answer_balance h api a)
  | tokenInfo => exact same (token_answer_info h api)
  | minter =>
    refine same ?_
    show (loadAt asTokenRec σ Token.infoKey >>= _) = _
    rw [h.info]; rfl
  | allowance o p =>
    show Sim L Eq (api.validate o >>= _) (api.validate o >>= _)
    refine Sim.same fun o' ho => Sim.same fun p' hp => ?_
    by_cases hl : o'.length ≤ 0xFFFF
    · refine same ?_
      rw [keyOf2, require, if_pos hl]
      show (mayLoadAt _ _ _ >>= _) = _
      rw [h.allow hl]; rfl
    · rw [keyOf2, require, if_neg hl]
      exact .long ((hs _ _ ho).resolve_left hl) _ _
  | allAllowances o st l =>
    show Sim L Eq (api.validate o >>= _) ((api.validate o >>= _) >>= _)
    rw [bind_assoc]
    refine Sim.same fun o' ho => ?_
    by_cases hl : o'.length ≤ 0xFFFF
    · refine same ?_
      rw [require, if_pos hl]
      show (readAll asAllowanceA _ >>= _) = _
      rw [under_eq h.holds.sorted (opens_addr (hf _ _ ho)) (Token.ordered_sorted _) (fun x => (allowanceJ x).print) (h.mem_allow hl), ← List.map_take,
        readAll_map (grant_readable h (fun p x hx => ⟨(o', p), (Token.get_grantsBy s o' p).symm.trans hx⟩) _ _), ← page_after]
      rfl
    · rw [require, if_neg hl]
      exact .long ((hs _ _ ho).resolve_left hl) _ _
  | allSpenderAllowances p st l =>
    show Sim L Eq (api.validate p >>= _) ((api.validate p >>= _) >>= _)
    rw [bind_assoc]
    refine Sim.same fun p' hp => ?_
    by_cases hl : p'.length ≤ 0xFFFF
    · refine same ?_
      rw [require, if_pos hl]
      show (readAll asAllowanceA _ >>= _) = _
      rw [under_eq h.holds.sorted (opens_addr (hf _ _ hp)) (Token.ordered_sorted _) (fun x => (allowanceJ x).print) (h.mem_spender hl), ← List.map_take,
        readAll_map (grant_readable h (fun o x hx => ⟨(o, p'), (Token.get_grantsTo s o p').symm.trans hx⟩) _ _), ← page_after]
      rfl
    · rw [require, if_neg hl]
      exact .long ((hs _ _ hp).resolve_left hl) _ _
  | allAccounts st l =>
    refine same ?_
    show (Except.ok (accountsJ _) : R Json) = Except.ok (accountsJ _)
    rw [under_eq h.holds.sorted opens_balance (Token.ordered_sorted _) (fun n => (u128J n).print) h.mem_bal, ← List.map_take, List.map_map,
      Token.queryAllAccounts, page_after]
    rfl
  | marketingInfo => simp only [Token.answerS, h.noMarketing]; exact same rfl
  | downloadLogo => simp only [Token.answerS, h.noLogo]; exact same rfl
  | _ => exact same rfl

end StoreL
end Halo
