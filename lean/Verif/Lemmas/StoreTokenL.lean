import Verif.Lemmas.StoreL
/-! # halo-token over raw storage -/

namespace Halo
namespace StoreL
open Codec QueryCodec

/-! ## Stored values are read back -/

/-- `TOKEN_INFO` of a token. -/
def recOf (s : TokenState) : TokenRec :=
  { name := s.name, symbol := s.symbol, decimals := s.decimals, totalSupply := s.totalSupply, mint := s.mint }

theorem optLt_some {o : Option Nat} {b : Nat} (h : optLt b o = true) : ∀ n, o = some n → n < b := by
  rintro n rfl
  exact of_decide_eq_true h

theorem asTokenRec_J (t : TokenRec) (h1 : t.decimals < 256) (h2 : t.totalSupply < B128)
    (h3 : optLt B128 (t.mint.bind (·.cap)) = true) : asTokenRec (tokenRecJ t) = some t := by
  obtain ⟨name, symbol, dec, sup, mint⟩ := t
  refine bsome (structOf_obj rfl) (bsome (reqd_eq (j := .str name) rfl rfl) (bsome (reqd_eq (j := .str symbol) rfl rfl)
    (bsome (reqd_eq rfl (asNum_num h1)) (bsome (reqd_eq rfl (asU128_u128J h2)) (bsome (x := mint.map fun m => ⟨m.minter, m.cap⟩) (optl_eq rfl ?_) ?_)))))
  · cases mint with
    | none => rfl
    | some m =>
      show (asMinter (minterJ ⟨m.minter, m.cap⟩)).map some = _
      rw [asMinter_J _ (optLt_some h3)]; rfl
  · cases mint <;> rfl

theorem allow_read {a : Allowance} (h1 : a.amount < B128) (h2 : a.expires.inRange = true) : asAllowanceA (allowanceJ a) = some a := by
  refine asAllowance_J a h1 ?_
  cases hx : a.expires with
  | never => trivial
  | atHeight n => rw [hx] at h2; exact of_decide_eq_true (p := n < B64) h2
  | atTime n => rw [hx] at h2; exact of_decide_eq_true (p := n < B64) h2

/-! ## Layout -/

/-- The storage of a token. -/
def tokenVal (s : TokenState) : Slot → Option Bytes
  | .item ns =>
    if ns = Token.infoKey then some (tokenRecJ (recOf s)).print
    else if ns = asc "contract_info" then some (versionJ Token.contractName (asc "0.1.0")).print else none
  | .entry ns a => if ns = asc "balance" then (s.balances.get a).map fun n => (u128J n).print else none
  | .entry2 ns a b =>
    if ns = asc "allowance" then (s.allowances.get (a, b)).map fun x => (allowanceJ x).print
    else if ns = asc "allowance_spender" then (s.allowances.get (b, a)).map fun x => (allowanceJ x).print else none

theorem info_ok : (Slot.item Token.infoKey).ok := ⟨_, _, rfl, by decide⟩
theorem version_ok : (Slot.item (asc "contract_info")).ok := ⟨_, _, rfl, by decide⟩
theorem bal_ok (a : Addr) : (Slot.entry (asc "balance") a).ok :=
  ⟨by decide, by rintro (h | h) <;> exact absurd h (by decide)⟩
theorem allow_ok {o p : Addr} (h : o.length ≤ 0xFFFF) : (Slot.entry2 (asc "allowance") o p).ok := ⟨by decide, .inl rfl, h⟩
theorem spender_ok {o p : Addr} (h : o.length ≤ 0xFFFF) : (Slot.entry2 (asc "allowance_spender") o p).ok := ⟨by decide, .inr rfl, h⟩

/-- A store that represents a token. -/
structure TokRep (σ : Store) (s : TokenState) : Prop where
  holds : Holds σ (tokenVal s)
  tok : Wire.Tok s

variable {σ : Store} {s : TokenState}

theorem TokRep.info (h : TokRep σ s) : loadAt asTokenRec σ Token.infoKey = .ok (recOf s) :=
  load_some h.holds info_ok (by simp only [tokenVal, if_true]) (asTokenRec_J _ h.tok.dec h.tok.sup h.tok.cap)

theorem TokRep.bal (h : TokRep σ s) (a : Addr) : mayLoadAt asU128 σ (Token.balKey a) = .ok (s.balances.get a) :=
  mayLoad_at (j := u128J) h.holds (bal_ok a) (by simp only [tokenVal, if_true]) fun _ hn => asU128_u128J (h.tok.bal _ (get_mem hn))

theorem allow_val (o p : Addr) : tokenVal s (.entry2 (asc "allowance") o p) = (s.allowances.get (o, p)).map fun x => (allowanceJ x).print := by
  simp only [tokenVal, if_true]

theorem spender_val (o p : Addr) : tokenVal s (.entry2 (asc "allowance_spender") p o) = (s.allowances.get (o, p)).map fun x => (allowanceJ x).print := by
  have : asc "allowance_spender" ≠ asc "allowance" := by decide
  simp only [tokenVal, this, if_true, if_false]

theorem TokRep.readable (h : TokRep σ s) {k : Addr × Addr} : ∀ x, s.allowances.get k = some x → asAllowanceA (allowanceJ x) = some x :=
  fun _ hx => allow_read (h.tok.all _ (get_mem hx)) (h.tok.exp _ (get_mem hx))

theorem TokRep.allow (h : TokRep σ s) {o p : Addr} (ho : o.length ≤ 0xFFFF) :
    mayLoadAt asAllowanceA σ (mapKey2 (asc "allowance") o p) = .ok (s.allowances.get (o, p)) :=
  mayLoad_at (j := allowanceJ) h.holds (allow_ok ho) (allow_val o p) h.readable

/-! ## Changes -/

theorem TokRep.setInfo (h : TokRep σ s) {s' : TokenState} (hb : s'.balances = s.balances) (ha : s'.allowances = s.allowances)
    (ht : Wire.Tok s') : TokRep (saveAt σ Token.infoKey (tokenRecJ (recOf s'))) s' := by
  refine ⟨h.holds.set info_ok fun t => ?_, ht⟩
  cases t with
  | item ns =>
    by_cases e : ns = Token.infoKey
    · simp [tokenVal, e]
    · simp [tokenVal, e]
  | entry ns a => simp [tokenVal, hb]
  | entry2 ns a b => simp [tokenVal, ha]

theorem TokRep.setBal (h : TokRep σ s) (a : Addr) {n : Nat} (hn : n < B128) :
    TokRep (saveAt σ (Token.balKey a) (u128J n)) { s with balances := s.balances.set a n } := by
  refine ⟨h.holds.set (bal_ok a) fun t => ?_, h.tok.setBal hn⟩
  cases t with
  | item ns => simp [tokenVal, recOf]
  | entry ns b =>
    by_cases e : ns = asc "balance"
    · subst e
      simp only [tokenVal, if_true, AMap.get_set, Slot.entry.injEq, true_and]
      split <;> rfl
    · simp [tokenVal, e]
  | entry2 ns a b => simp [tokenVal]

/-- Both maps get the same entry. -/
theorem TokRep.setAllow (h : TokRep σ s) {o p : Addr} (ho : o.length ≤ 0xFFFF) (hp : p.length ≤ 0xFFFF) {x : Allowance}
    (h1 : x.amount < B128) (h2 : x.expires.inRange = true) :
    TokRep (saveAt (saveAt σ (mapKey2 (asc "allowance") o p) (allowanceJ x)) (mapKey2 (asc "allowance_spender") p o) (allowanceJ x))
      { s with allowances := s.allowances.set (o, p) x } := by
  refine ⟨(h.holds.set (V' := fun t => if t = .entry2 (asc "allowance") o p then some (allowanceJ x).print else tokenVal s t) (allow_ok ho) fun t => rfl).set
    (spender_ok hp) fun t => ?_, h.tok.setAll h1 h2⟩
  cases t with
  | item ns => simp [tokenVal, recOf]
  | entry ns b => simp [tokenVal]
  | entry2 ns a b =>
    by_cases e : ns = asc "allowance"
    · subst e
      have : asc "allowance" ≠ asc "allowance_spender" := by decide
      simp only [tokenVal, if_true, AMap.get_set, Slot.entry2.injEq, true_and, Prod.mk.injEq, this, false_and, if_false]
      split <;> rfl
    · by_cases e' : ns = asc "allowance_spender"
      · subst e'
        simp only [tokenVal, e, if_true, if_false, AMap.get_set, Slot.entry2.injEq, true_and, Prod.mk.injEq, false_and]
        by_cases hx : b = o ∧ a = p
        · rw [if_pos hx, if_pos hx.symm]; rfl
        · rw [if_neg hx, if_neg fun h => hx h.symm]
      · simp [tokenVal, e, e']

theorem TokRep.removeAllow (h : TokRep σ s) {o p : Addr} (ho : o.length ≤ 0xFFFF) (hp : p.length ≤ 0xFFFF) :
    TokRep ((σ.remove (mapKey2 (asc "allowance") o p)).remove (mapKey2 (asc "allowance_spender") p o))
      { s with allowances := s.allowances.erase (o, p) } := by
  refine ⟨(h.holds.remove (V' := fun t => if t = .entry2 (asc "allowance") o p then none else tokenVal s t) (allow_ok ho) fun t => rfl).remove
    (spender_ok hp) fun t => ?_, ⟨h.tok.dec, h.tok.sup, h.tok.cap, h.tok.bal, fun e he => h.tok.all e (List.mem_of_mem_filter he),
      fun e he => h.tok.exp e (List.mem_of_mem_filter he)⟩⟩
  cases t with
  | item ns => simp [tokenVal, recOf]
  | entry ns b => simp [tokenVal]
  | entry2 ns a b =>
    by_cases e : ns = asc "allowance"
    · subst e
      have : asc "allowance" ≠ asc "allowance_spender" := by decide
      simp only [tokenVal, if_true, AMap.get_erase, Slot.entry2.injEq, true_and, Prod.mk.injEq, this, false_and, if_false]
      split <;> rfl
    · by_cases e' : ns = asc "allowance_spender"
      · subst e'
        simp only [tokenVal, e, if_true, if_false, AMap.get_erase, Slot.entry2.injEq, true_and, Prod.mk.injEq, false_and]
        by_cases hx : b = o ∧ a = p
        · rw [if_pos hx, if_pos hx.symm]; rfl
        · rw [if_neg hx, if_neg fun h => hx h.symm]
      · simp [tokenVal, e, e']

/-- Reading the mirror after the entry itself was written. -/
theorem TokRep.mirror (h : TokRep σ s) {o p : Addr} (ho : o.length ≤ 0xFFFF) (hp : p.length ≤ 0xFFFF) (x : Allowance) :
    mayLoadAt asAllowanceA (saveAt σ (mapKey2 (asc "allowance") o p) (allowanceJ x)) (mapKey2 (asc "allowance_spender") p o) =
      .ok (s.allowances.get (o, p)) := by
  refine mayLoad_at (j := allowanceJ) (h.holds.set (V' := fun t => if t = .entry2 (asc "allowance") o p then some (allowanceJ x).print else tokenVal s t)
    (allow_ok ho) fun t => rfl) (spender_ok hp) ?_ h.readable
  have : asc "allowance_spender" ≠ asc "allowance" := by decide
  exact (if_neg fun h => this (Slot.entry2.inj h).1).trans (spender_val o p)

theorem allowKeys_eq {o p : Addr} (ho : o.length ≤ 0xFFFF) (hp : p.length ≤ 0xFFFF) :
    Token.allowKeys o p = .ok (mapKey2 (asc "allowance") o p, mapKey2 (asc "allowance_spender") p o) := by
  simp only [Token.allowKeys, keyOf2, require, if_pos ho, if_pos hp]
  rfl

/-! ## The functions of cw20-base -/

theorem debit_sim (h : TokRep σ s) (a : Addr) (x : Nat) : Sim L TokRep (Token.debitS σ a x) (Token.debit s a x) := by
  unfold Token.debitS Token.debit
  rw [h.bal]
  show Sim L TokRep (Uint128.checkedSub (s.balances.getD0 a) x >>= _) _
  refine Sim.same fun b hb => .ok ?_
  exact h.setBal a (lt_of_le_of_lt ((Uint128.checkedSub_eq_ok.mp hb).2 ▸ Nat.sub_le _ _) (h.tok.getD0 a))

theorem credit_sim (h : TokRep σ s) (a : Addr) (x : Nat) : Sim L TokRep (Token.creditS σ a x) (Token.credit s a x) := by
  unfold Token.creditS Token.credit
  rw [h.bal]
  show Sim L TokRep (Uint128.add (s.balances.getD0 a) x >>= _) _
  refine Sim.same fun b hb => .ok ?_
  obtain ⟨hb1, rfl⟩ := Uint128.add_eq_ok.mp hb
  exact h.setBal a hb1

theorem shrink_sim (h : TokRep σ s) (x : Nat) :
    Sim L TokRep (Token.shrinkS σ x) (do let n ← Uint128.checkedSub s.totalSupply x; return { s with totalSupply := n }) := by
  unfold Token.shrinkS
  rw [h.info]
  show Sim L TokRep (Uint128.checkedSub s.totalSupply x >>= _) _
  refine Sim.same fun b hb => .ok ?_
  have hb' : b < B128 := lt_of_le_of_lt ((Uint128.checkedSub_eq_ok.mp hb).2 ▸ Nat.sub_le _ _) h.tok.sup
  exact h.setInfo (s' := { s with totalSupply := b }) rfl rfl ⟨h.tok.dec, hb', h.tok.cap, h.tok.bal, h.tok.all, h.tok.exp⟩

/-- States with the same response. -/
def Same {α β : Type} (H : α → β → Prop) (x : α × Response) (y : β × Response) : Prop := H x.1 y.1 ∧ x.2 = y.2

theorem Sim.ret {α β : Type} {H : α → β → Prop} {a : α} {b : β} (h : H a b) (r : Response) :
    Sim L (Same H) (pure (a, r)) (pure (b, r)) := .ok ⟨h, rfl⟩

theorem transfer_sim (h : TokRep σ s) (api : Api) (u : Addr) (to' : Str) (x : Nat) :
    Sim L (Same TokRep) (Token.transferS api σ u to' x) (Token.transfer api s u to' x) :=
  Sim.same fun _ _ => Sim.same fun r _ => (debit_sim h u x).bind fun _ _ h => (credit_sim h r x).bind fun _ _ h => Sim.ret h _

theorem send_sim (h : TokRep σ s) (api : Api) (u : Addr) (to' : Str) (x : Nat) (m : HookMsg) :
    Sim L (Same TokRep) (Token.sendS api σ u to' x m) (Token.send api s u to' x m) :=
  Sim.same fun _ _ => Sim.same fun r _ => (debit_sim h u x).bind fun _ _ h => (credit_sim h r x).bind fun _ _ h => Sim.ret h _

theorem burn_sim (h : TokRep σ s) (u : Addr) (x : Nat) : Sim L (Same TokRep) (Token.burnS σ u x) (Token.burn s u x) := by
  refine Sim.same fun _ _ => (debit_sim h u x).bind fun σ1 s1 h1 => ?_
  have := (shrink_sim (L := L) h1 x).bind (H' := Same TokRep) (f := fun σ => pure (σ, {})) (g := fun s => pure (s, {})) fun _ _ h => Sim.ret h _
  rwa [bind_assoc] at this

theorem mint_sim (h : TokRep σ s) (api : Api) (u : Addr) (to' : Str) (x : Nat) :
    Sim L (Same TokRep) (Token.mintS api σ u to' x) (Token.mint api s u to' x) := by
  refine Sim.same fun _ _ => ?_
  rw [h.info]
  show Sim L (Same TokRep) (okOr s.mint .unauthorized >>= _) _
  refine Sim.same fun m hm => Sim.same fun _ _ => Sim.same fun t ht => ?_
  have hm : s.mint = some m := okOr_eq_ok.mp hm
  obtain ⟨ht1, rfl⟩ := Uint128.add_eq_ok.mp ht
  have hcap : Token.getCap { s with totalSupply := s.totalSupply + x } = m.cap := by
    show s.mint.bind (·.cap) = _
    rw [hm]; rfl
  have e : (recOf s).totalSupply = s.totalSupply := rfl
  simp only [e, hcap]
  have h' : TokRep (saveAt σ Token.infoKey (tokenRecJ { recOf s with totalSupply := s.totalSupply + x })) { s with totalSupply := s.totalSupply + x } :=
    h.setInfo (s' := { s with totalSupply := s.totalSupply + x }) rfl rfl ⟨h.tok.dec, ht1, h.tok.cap, h.tok.bal, h.tok.all, h.tok.exp⟩
  cases m.cap with
  | none => exact Sim.same fun _ _ => Sim.same fun r _ => (credit_sim h' r x).bind fun _ _ h => Sim.ret h _
  | some l => exact Sim.same fun _ _ => Sim.same fun r _ => (credit_sim h' r x).bind fun _ _ h => Sim.ret h _

/-- Addresses fit the two bytes for the length of a part of a key, or `L`. -/
def Short (L : Prop) (api : Api) : Prop := ∀ a b, api.validate a = .ok b → b.length ≤ 0xFFFF ∨ L

theorem allowKeys_or {o p : Addr} (ho : o.length ≤ 0xFFFF ∨ L) (hp : p.length ≤ 0xFFFF ∨ L) :
    (o.length ≤ 0xFFFF ∧ p.length ≤ 0xFFFF) ∨ L ∧ Token.allowKeys o p = .error (.panic .overflow) := by
  by_cases h1 : o.length ≤ 0xFFFF
  · by_cases h2 : p.length ≤ 0xFFFF
    · exact .inl ⟨h1, h2⟩
    · refine .inr ⟨hp.resolve_left h2, ?_⟩
      simp only [Token.allowKeys, keyOf2, require, if_pos h1, if_neg h2]
      rfl
  · refine .inr ⟨ho.resolve_left h1, ?_⟩
    simp only [Token.allowKeys, keyOf2, require, if_neg h1]
    rfl

theorem increase_sim (h : TokRep σ s) {api : Api} (hs : Short L api) (blk : Block) {u : Addr} (hu : u.length ≤ 0xFFFF ∨ L) (sp : Str) (x : Nat) (e : Option Expiration)
    (he : e.all Expiration.inRange = true) :
    Sim L (Same TokRep) (Token.increaseAllowanceS api blk σ u sp x e) (Token.increaseAllowance api blk s u sp x e) := by
  refine Sim.same fun p hp => Sim.same fun _ _ => ?_
  rcases allowKeys_or hu (hs _ _ hp) with ⟨hu, hp⟩ | ⟨hl, e1⟩
  swap
  · rw [e1]; exact .long hl _ _
  rw [allowKeys_eq hu hp]
  simp only [ok_bind]
  rw [h.allow hu]
  simp only [ok_bind]
  refine Sim.same fun v hv => Sim.same fun a ha => ?_
  rw [h.mirror hu hp]
  simp only [ok_bind]
  rw [hv, ok_bind, ha]
  obtain ⟨ha1, rfl⟩ := Uint128.add_eq_ok.mp ha
  refine Sim.ret (h.setAllow hu hp ha1 ?_) _
  show (e.getD _).inRange = true
  cases e with
  | some e => exact he
  | none =>
    cases hg : AMap.get s.allowances (u, p) with
    | none => rfl
    | some al => exact h.tok.exp _ (get_mem hg)

theorem decrease_sim (h : TokRep σ s) {api : Api} (hs : Short L api) (blk : Block) {u : Addr} (hu : u.length ≤ 0xFFFF ∨ L) (sp : Str) (x : Nat) (e : Option Expiration)
    (he : e.all Expiration.inRange = true) :
    Sim L (Same TokRep) (Token.decreaseAllowanceS api blk σ u sp x e) (Token.decreaseAllowance api blk s u sp x e) := by
  refine Sim.same fun p hp => Sim.same fun _ _ => ?_
  rcases allowKeys_or hu (hs _ _ hp) with ⟨hu, hp⟩ | ⟨hl, e1⟩
  swap
  · rw [e1]; exact .long hl _ _
  rw [allowKeys_eq hu hp]
  simp only [ok_bind, loadAt]
  rw [h.allow hu]
  simp only [ok_bind]
  refine Sim.same fun cur hc => ?_
  have hg : s.allowances.get (u, p) = some cur := okOr_eq_ok.mp hc
  split
  · refine Sim.same fun a ha => Sim.same fun _ _ => Sim.ret (h.setAllow hu hp ?_ ?_) _
    · exact lt_of_le_of_lt ((Uint128.checkedSub_eq_ok.mp ha).2 ▸ Nat.sub_le _ _) (h.tok.all _ (get_mem hg))
    · show (e.getD _).inRange = true
      cases e with
      | some e => exact he
      | none => exact h.tok.exp _ (get_mem hg)
  · exact Sim.ret (h.removeAllow hu hp) _

theorem deduct_sim (h : TokRep σ s) (blk : Block) {o p : Addr} (ho : o.length ≤ 0xFFFF ∨ L) (hp : p.length ≤ 0xFFFF ∨ L) (x : Nat) :
    Sim L TokRep (Token.deductAllowanceS blk σ o p x) (Token.deductAllowance blk s o p x) := by
  unfold Token.deductAllowanceS Token.deductAllowance
  rcases allowKeys_or ho hp with ⟨ho, hp⟩ | ⟨hl, e1⟩
  swap
  · rw [e1]; exact .long hl _ _
  rw [allowKeys_eq ho hp]
  simp only [ok_bind]
  rw [h.allow ho]
  simp only [ok_bind]
  cases hg : AMap.get s.allowances (o, p) with
  | none => exact .error _
  | some al =>
    have hm := fun y => (h.mirror ho hp y).trans (congrArg _ hg)
    unfold Token.deducted
    simp only [bind_assoc, pure_bind]
    refine Sim.same fun _ hr => Sim.same fun y hy => ?_
    rw [hm]
    simp only [ok_bind, hr, hy]
    exact .ok (h.setAllow ho hp (lt_of_le_of_lt ((Uint128.checkedSub_eq_ok.mp hy).2 ▸ Nat.sub_le _ _) (h.tok.all _ (get_mem hg)))
      (h.tok.exp _ (get_mem hg)))

theorem transferFrom_sim (h : TokRep σ s) {api : Api} (hs : Short L api) (blk : Block) {u : Addr} (hu : u.length ≤ 0xFFFF ∨ L) (o d : Str) (x : Nat) :
    Sim L (Same TokRep) (Token.transferFromS api blk σ u o d x) (Token.transferFrom api blk s u o d x) :=
  Sim.same fun r _ => Sim.same fun ow ho => (deduct_sim h blk (hs _ _ ho) hu x).bind fun _ _ h =>
    (debit_sim h ow x).bind fun _ _ h => (credit_sim h r x).bind fun _ _ h => Sim.ret h _

theorem sendFrom_sim (h : TokRep σ s) {api : Api} (hs : Short L api) (blk : Block) {u : Addr} (hu : u.length ≤ 0xFFFF ∨ L) (o d : Str) (x : Nat) (m : HookMsg) :
    Sim L (Same TokRep) (Token.sendFromS api blk σ u o d x m) (Token.sendFrom api blk s u o d x m) :=
  Sim.same fun r _ => Sim.same fun ow ho => (deduct_sim h blk (hs _ _ ho) hu x).bind fun _ _ h =>
    (debit_sim h ow x).bind fun _ _ h => (credit_sim h r x).bind fun _ _ h => Sim.ret h _

theorem burnFrom_sim (h : TokRep σ s) {api : Api} (hs : Short L api) (blk : Block) {u : Addr} (hu : u.length ≤ 0xFFFF ∨ L) (o : Str) (x : Nat) :
    Sim L (Same TokRep) (Token.burnFromS api blk σ u o x) (Token.burnFrom api blk s u o x) := by
  refine Sim.same fun ow ho => (deduct_sim h blk (hs _ _ ho) hu x).bind fun _ _ h => (debit_sim h ow x).bind fun σ1 s1 h1 => ?_
  have := (shrink_sim (L := L) h1 x).bind (H' := Same TokRep) (f := fun σ => pure (σ, {})) (g := fun s => pure (s, {})) fun _ _ h => Sim.ret h _
  rwa [bind_assoc] at this

theorem updateMinter_sim (h : TokRep σ s) (api : Api) (u : Addr) (o : Option Str) :
    Sim L (Same TokRep) (Token.updateMinterS api σ u o) (Token.updateMinter api s u o) := by
  unfold Token.updateMinterS Token.updateMinter
  rw [h.info]
  show Sim L (Same TokRep) (okOr s.mint .unauthorized >>= _) _
  refine Sim.same fun m hm => Sim.same fun _ _ => ?_
  have hm : s.mint = some m := okOr_eq_ok.mp hm
  cases o with
  | none => exact Sim.ret (h.setInfo (s' := { s with mint := none }) rfl rfl ⟨h.tok.dec, h.tok.sup, rfl, h.tok.bal, h.tok.all, h.tok.exp⟩) _
  | some d =>
    refine Sim.same fun a _ => Sim.ret (h.setInfo (s' := { s with mint := some { minter := a, cap := m.cap } }) rfl rfl
      ⟨h.tok.dec, h.tok.sup, ?_, h.tok.bal, h.tok.all, h.tok.exp⟩) _
    have := h.tok.cap
    rw [hm] at this
    exact this

theorem TokRep.noMarketing (h : TokRep σ s) : σ.get (asc "marketing_info") = none :=
  h.holds.at_ (.item (asc "marketing_info")) ⟨_, _, rfl, by decide⟩

theorem TokRep.noLogo (h : TokRep σ s) : σ.get (asc "logo") = none :=
  h.holds.at_ (.item (asc "logo")) ⟨_, _, rfl, by decide⟩

theorem token_execute_sim (h : TokRep σ s) {api : Api} (hs : Short L api) (blk : Block) {u : Addr} (hu : u.length ≤ 0xFFFF ∨ L) {m : ExecMsg}
    (hm : m.inRange = true) : Sim L (Same TokRep) (Token.executeS api blk σ u m) (Token.execute api blk s u m) := by
  cases m with
  | transfer d x => exact transfer_sim h api u d x
  | burn x => exact burn_sim h u x
  | send d x p => exact send_sim h api u d x p
  | mint d x => exact mint_sim h api u d x
  | increaseAllowance d x e => exact increase_sim h hs blk hu d x e (Bool.and_eq_true _ _ ▸ hm).2
  | decreaseAllowance d x e => exact decrease_sim h hs blk hu d x e (Bool.and_eq_true _ _ ▸ hm).2
  | transferFrom o d x => exact transferFrom_sim h hs blk hu o d x
  | burnFrom o x => exact burnFrom_sim h hs blk hu o x
  | sendFrom o d x p => exact sendFrom_sim h hs blk hu o d x p
  | updateMinter o => exact updateMinter_sim h api u o
  | marketing =>
    show Sim L (Same TokRep) (Token.marketingS σ) (.error .unauthorized)
    rw [Token.marketingS, h.noMarketing]
    exact .error _
  | _ => exact .error _

end StoreL
end Halo
