/-!
# Base: errors, the result monad, bytes, association maps

Conventions of the whole model

* A Rust function returning `Result<T, E>`/`StdResult<T>` or one that may panic becomes a function
  returning `R T`.  A panic is an error value too (`Err.panic _`): inside a transaction a panic and an
  `Err` both abort the message and roll the transaction back.
* `Uint128`, `u64`, `u8`, `Uint256`, … values are `Nat`; every place where Rust would overflow is an
  explicit check.
* Rust `String`s are represented by their UTF-8 bytes (`Str`); equality and ordering of Rust strings is
  equality and lexicographic ordering of these bytes.
-/

namespace Halo

/-- Rust `String` as its UTF-8 bytes; also raw byte vectors (`Vec<u8>`, `CanonicalAddr`). -/
abbrev Str := List UInt8
/-- `CanonicalAddr`, raw storage keys. -/
abbrev Bytes := List UInt8
/-- `Addr` (a normalized human-readable address). -/
abbrev Addr := Str
/-- Native coin denomination. -/
abbrev Denom := Str

/-- Reasons for a panic (all abort the transaction). -/
inductive Panic where
  | overflow        -- "arithmetic operation overflow" / u128 overflow-checks / Uint128 overflow
  | subUnderflow    -- `assert!(self.0 >= rhs.0)`
  | divByZero       -- "Denominator must not be zero"
  | convOverflow    -- `assert!(arr[2] == 0)` in Uint256 -> u128
  | wrongAsset      -- `.expect("Wrong asset info is given")`
  | unwrap          -- `.unwrap()` on an error
  deriving DecidableEq, Repr

/-- All error outcomes of contract entry points and of the host. -/
inductive Err where
  | panic (p : Panic)
  | generic (code : Nat)  -- `StdError::generic_err`, numbered by message (see the use sites)
  | unauthorized          -- `ContractError::Unauthorized` / "unauthorized"
  | invalidZeroAmount     -- `ContractError::InvalidZeroAmount`
  | maxSpread             -- `ContractError::MaxSpreadAssertion`
  | maxSlippage           -- `ContractError::MaxSlippageAssertion`
  | assetMismatch         -- `ContractError::AssetMismatch`
  | overflowErr           -- `OverflowError` from a `checked_*` operation
  | parse                 -- message / response does not deserialize
  | notFound              -- storage item or contract not found
  | addr                  -- `addr_validate` / `addr_canonicalize` / `addr_humanize` failed
  | insufficientFunds     -- bank: not enough coins
  | invalidCoins          -- bank: zero or duplicate coins
  | noAllowance | expired | cannotExceedCap | duplicateAccounts | cannotSetOwnAccount | invalidExpiration -- cw20-base
  | accountExists         -- instantiate at an occupied address
  | outOfGas
  | other (n : Nat)       -- failure chosen by a third-party contract
  deriving DecidableEq, Repr

/-- Result of a Rust computation. -/
abbrev R (α : Type) := Except Err α

/-- Rust `if !p { return Err(e) }` / `assert!(p)`. -/
def require (p : Prop) [Decidable p] (e : Err) : R Unit :=
  if p then .ok () else .error e

/-- `Option` to result with a given error (`ok_or`). -/
def okOr {α : Type} (o : Option α) (e : Err) : R α :=
  match o with
  | some a => .ok a
  | none => .error e

@[simp] theorem require_eq_ok {p : Prop} [Decidable p] {e : Err} {u : Unit} :
    require p e = .ok u ↔ p := by
  unfold require; split <;> simp [*]

@[simp] theorem okOr_eq_ok {α : Type} {o : Option α} {e : Err} {a : α} :
    okOr o e = .ok a ↔ o = some a := by
  unfold okOr; split <;> simp

@[simp] theorem bind_eq_ok {α β : Type} {x : R α} {f : α → R β} {b : β} :
    (x >>= f) = .ok b ↔ ∃ a, x = .ok a ∧ f a = .ok b := by
  cases x <;> simp [bind, Except.bind]

@[simp] theorem require_map_eq_ok {β : Type} {p : Prop} [Decidable p] {e : Err} {f : Unit → β} {b : β} :
    (f <$> require p e) = .ok b ↔ p ∧ f () = b := by
  unfold require; split <;> simp [Functor.map, Except.map, *]

@[simp] theorem ok_bind {α β : Type} {a : α} {f : α → R β} :
    ((Except.ok a : R α) >>= f) = f a := rfl

@[simp] theorem error_bind {α β : Type} {e : Err} {f : α → R β} :
    ((Except.error e : R α) >>= f) = .error e := rfl

@[simp] theorem pure_eq_ok {α : Type} {a b : α} : (pure a : R α) = .ok b ↔ a = b := by
  simp [pure, Except.pure]

@[simp] theorem throw_ne_ok {α : Type} {e : Err} {b : α} : (throw e : R α) ≠ .ok b := by
  simp [throw, throwThe, MonadExceptOf.throw]

@[simp] theorem map_eq_ok {α β : Type} {x : R α} {f : α → β} {b : β} :
    (f <$> x) = .ok b ↔ ∃ a, x = .ok a ∧ f a = b := by
  cases x <;> simp [Functor.map, Except.map]

/-! ## Association maps

`AMap K V` models `cw_storage_plus::Map` where iteration order is irrelevant. -/

/-- A finite map as an association list (first occurrence wins). -/
abbrev AMap (K V : Type) := List (K × V)

namespace AMap
variable {K V : Type} [DecidableEq K]

/-- `Map::may_load`. -/
def get (m : AMap K V) (k : K) : Option V :=
  match m with
  | [] => none
  | (k', v) :: t => if k' = k then some v else get t k

/-- `Map::save`. -/
def set (m : AMap K V) (k : K) (v : V) : AMap K V :=
  match m with
  | [] => [(k, v)]
  | (k', v') :: t => if k' = k then (k, v) :: t else (k', v') :: set t k v

/-- `Map::remove`. -/
def erase (m : AMap K V) (k : K) : AMap K V :=
  m.filter (fun e => !decide (e.1 = k))

@[simp] theorem get_nil (k : K) : get ([] : AMap K V) k = none := rfl

theorem get_set_self (m : AMap K V) (k : K) (v : V) : (m.set k v).get k = some v := by
  induction m with
  | nil => simp [set, get]
  | cons h t ih =>
    obtain ⟨k', v'⟩ := h
    by_cases hk : k' = k <;> simp [set, get, hk, ih]

theorem get_set_ne (m : AMap K V) {k k' : K} (v : V) (h : k' ≠ k) :
    (m.set k v).get k' = m.get k' := by
  induction m with
  | nil => simp [set, get, Ne.symm h]
  | cons hd t ih =>
    obtain ⟨k2, v2⟩ := hd
    by_cases hk : k2 = k
    · subst hk; simp [set, get, Ne.symm h]
    · simp [set, get, hk, ih]

theorem get_set (m : AMap K V) (k k' : K) (v : V) :
    (m.set k v).get k' = if k' = k then some v else m.get k' := by
  split
  · subst_vars; exact get_set_self m _ v
  · exact get_set_ne m v ‹_›

theorem get_erase (m : AMap K V) (k k' : K) :
    (m.erase k).get k' = if k' = k then none else m.get k' := by
  induction m with
  | nil => simp [erase, get]
  | cons hd t ih =>
    obtain ⟨k2, v2⟩ := hd
    unfold erase at ih ⊢
    by_cases hk : k2 = k
    · subst hk
      simp only [List.filter_cons, decide_true, Bool.not_true, Bool.false_eq_true, ↓reduceIte, ih, get]
      by_cases h' : k' = k2
      · simp [h']
      · simp [h', Ne.symm h']
    · simp only [List.filter_cons, hk, decide_false, Bool.not_false, ↓reduceIte, get, ih]
      by_cases h' : k' = k
      · subst h'; simp [hk]
      · simp [h']

/-- The value stored, or `0` (`unwrap_or_default` for amounts). -/
def getD0 (m : AMap K Nat) (k : K) : Nat := (m.get k).getD 0

/-- Sum of all stored amounts. -/
def total (m : AMap K Nat) : Nat := (m.map Prod.snd).sum

@[simp] theorem getD0_nil (k : K) : getD0 ([] : AMap K Nat) k = 0 := rfl

theorem getD0_set (m : AMap K Nat) (k k' : K) (v : Nat) :
    (m.set k v).getD0 k' = if k' = k then v else m.getD0 k' := by
  unfold getD0; rw [get_set]; split <;> simp

theorem total_set (m : AMap K Nat) (k : K) (v : Nat) :
    (m.set k v).total + m.getD0 k = m.total + v := by
  induction m with
  | nil => simp [set, total, getD0, get]
  | cons hd t ih =>
    obtain ⟨k2, v2⟩ := hd
    by_cases hk : k2 = k
    · simp [set, hk, total, getD0, get]; omega
    · simp only [set, hk, if_false, total, getD0, get, List.map_cons, List.sum_cons] at ih ⊢
      omega

theorem getD0_le_total (m : AMap K Nat) (k : K) : m.getD0 k ≤ m.total := by
  induction m with
  | nil => simp [getD0, total]
  | cons hd t ih =>
    obtain ⟨k2, v2⟩ := hd
    by_cases hk : k2 = k
    · simp [getD0, get, hk, total]
    · simp only [getD0, get, hk, if_false, total, List.map_cons, List.sum_cons] at ih ⊢
      omega

end AMap
end Halo
