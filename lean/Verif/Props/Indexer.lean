import Verif.Props.Text
import Verif.Spec.Indexer
/-! # What an indexer can learn from the texts alone (C74) -/

namespace Halo
open _root_.Halo.Spec

theorem digit_eq : digit = isDigit := by
  funext b
  have := isDigit_iff (b := b)
  unfold digit
  rcases h : isDigit b <;> simp_all

theorem number_dec (n : Nat) {s : Str} (h : ∀ b ∈ s.head?, ¬ (48 ≤ b.toNat ∧ b.toNat ≤ 57)) :
    number (natToDec n ++ s) = n ∧ afterNumber (natToDec n ++ s) = s := by
  have hs : ∀ b ∈ s.head?, isDigit b = false := by
    intro b hb
    have := h b hb
    rw [← isDigit_iff] at this
    simpa using this
  have ha := List.all_eq_true.mp (natToDec_all n)
  have h1 : (natToDec n ++ s).takeWhile isDigit = natToDec n := by
    rw [List.takeWhile_append_of_pos ha]
    cases s with
    | nil => simp
    | cons b t => simp [hs b (by simp)]
  have h2 : (natToDec n ++ s).dropWhile isDigit = s := by
    rw [List.dropWhile_append_of_pos ha]
    cases s with
    | nil => rfl
    | cons b t => simp [hs b (by simp)]
  unfold number afterNumber
  rw [digit_eq, h1, h2]
  refine ⟨?_, rfl⟩
  have := dval_natToDec n
  unfold dval at this
  simp only [Nat.mul_comm 10]
  exact this

theorem number_eq (n : Nat) : number (natToDec n) = n := by
  have := (number_dec n (s := []) (by simp)).1
  rwa [List.append_nil] at this

theorem split_comma {n t : Str} (h : (44 : UInt8) ∉ n) :
    (n ++ asc ", " ++ t).takeWhile (fun b => b ≠ 44) = n ∧ ((n ++ asc ", " ++ t).dropWhile (fun b => b ≠ 44)).drop 2 = t := by
  have ha : ∀ b ∈ n, (fun b : UInt8 => decide (b ≠ 44)) b = true := by
    intro b hb
    simp only [decide_eq_true_eq]
    rintro rfl
    exact h hb
  rw [List.append_assoc, List.takeWhile_append_of_pos ha, List.dropWhile_append_of_pos ha]
  have : asc ", " = [44, 32] := by decide
  rw [this]
  simp

theorem head_clear {n t : Str} (h : Clear n) : ∀ b ∈ (n ++ asc ", " ++ t).head?, ¬ (48 ≤ b.toNat ∧ b.toNat ≤ 57) := by
  cases n with
  | nil =>
    have : asc ", " = [44, 32] := by decide
    rw [this]
    intro b hb
    simp only [List.nil_append, List.cons_append, List.head?_cons, Option.mem_some] at hb
    subst hb
    decide
  | cons a n =>
    intro b hb
    exact h.1 b (by simpa using hb)

theorem read_assets {x y : Asset} (hx : Clear (nameOf x.info)) (hy : Clear (nameOf y.info)) :
    number (x.text ++ asc ", " ++ y.text) = x.amount ∧
    (afterNumber (x.text ++ asc ", " ++ y.text)).takeWhile (fun b => b ≠ 44) = nameOf x.info ∧
    number (((afterNumber (x.text ++ asc ", " ++ y.text)).dropWhile (fun b => b ≠ 44)).drop 2) = y.amount := by
  have e : x.text ++ asc ", " ++ y.text = natToDec x.amount ++ (nameOf x.info ++ asc ", " ++ y.text) := by
    unfold Asset.text
    rw [AssetInfo.text_eq, List.append_assoc, List.append_assoc, List.append_assoc]
  obtain ⟨h1, h2⟩ := number_dec x.amount (head_clear (t := y.text) hx)
  obtain ⟨h3, h4⟩ := split_comma (t := y.text) hx.2
  rw [e, h2]
  refine ⟨h1, h3, ?_⟩
  rw [h4]
  unfold Asset.text
  rw [AssetInfo.text_eq]
  exact (number_dec _ hy.1).1

theorem read_swap (s r : Str) (o a : AssetInfo) (x y z u : Nat) (n : Str) :
    readCall n (Event.swap s r o a x y z u).attributes =
      some (if nameOf o = n then .swap0 (number (natToDec x)) else .swap1 (number (natToDec x))) := by
  rw [← AssetInfo.text_eq]; rfl

theorem read_withdraw (s : Str) (x : Nat) (as : Asset × Asset) (n : Str) :
    readCall n (Event.withdrawLiquidity s x as).attributes = some (.withdraw (number (natToDec x))) := rfl

theorem read_provide (s r : Str) (as : Asset × Asset) (x : Nat) (n : Str) :
    readCall n (Event.provideLiquidity s r as x).attributes =
      some (if (afterNumber (as.1.text ++ asc ", " ++ as.2.text)).takeWhile (fun b => b ≠ 44) = n then
        .deposit (number (as.1.text ++ asc ", " ++ as.2.text))
          (number (((afterNumber (as.1.text ++ asc ", " ++ as.2.text)).dropWhile (fun b => b ≠ 44)).drop 2))
      else .deposit (number (((afterNumber (as.1.text ++ asc ", " ++ as.2.text)).dropWhile (fun b => b ≠ 44)).drop 2))
        (number (as.1.text ++ asc ", " ++ as.2.text))) := rfl

theorem readCall_of {i0 i1 : AssetInfo} (h0 : Clear (nameOf i0)) (h1 : Clear (nameOf i1)) (hne : nameOf i0 ≠ nameOf i1)
    {e : Pool × Call} {ev : Event} (h : Reports i0 i1 e ev) : readCall (nameOf i0) ev.attributes = some e.2 := by
  obtain ⟨b, l⟩ := e
  cases l with
  | swap0 x =>
    cases ev <;> simp only [Reports] at h
    obtain ⟨rfl, rfl, rfl, _⟩ := h
    rw [read_swap, if_pos rfl, number_eq]
  | swap1 x =>
    cases ev <;> simp only [Reports] at h
    obtain ⟨rfl, rfl, rfl, _⟩ := h
    rw [read_swap, if_neg (Ne.symm hne), number_eq]
  | withdraw x =>
    cases ev <;> simp only [Reports] at h
    obtain ⟨rfl, _⟩ := h
    rw [read_withdraw, number_eq]
  | deposit d0 d1 =>
    cases ev <;> simp only [Reports] at h
    rw [read_provide]
    rcases h.1 with rfl | rfl
    · obtain ⟨r1, r2, r3⟩ := read_assets (x := ⟨i0, d0⟩) (y := ⟨i1, d1⟩) h0 h1
      simp only at r1 r2 r3 ⊢
      rw [r1, r2, r3, if_pos rfl]
    · obtain ⟨r1, r2, r3⟩ := read_assets (x := ⟨i1, d1⟩) (y := ⟨i0, d0⟩) h1 h0
      simp only at r1 r2 r3 ⊢
      rw [r1, r2, r3, if_neg (Ne.symm hne)]

/-- C74, for an indexer: over any history, if the names of the pair's two assets are different and readable, reading the texts
recorded under the pair's address one by one yields exactly the requests that were made to the pair, in order: which asset was
sold and how much of it, which amounts were deposited, how many LP tokens were returned. -/
theorem C74_indexer {c : Chain} (hc : c.Lawful) {w w' : World} (hw : Reachable c w) {tr : List (World × Frame)}
    {es : List (Addr × Event)} (hl : Logged c w tr es w') {k : PairSite} (hk : k.Sound c w)
    (h0 : Clear (nameOf k.i0)) (h1 : Clear (nameOf k.i1)) (hne : nameOf k.i0 ≠ nameOf k.i1) :
    ((∃ adm, w'.contracts k.a = some ⟨adm, .other⟩) ∨
      ∃ t adm, (k.i0 = .token t ∨ k.i1 = .token t) ∧ w'.contracts t = some ⟨adm, .other⟩) ∨
    ((saidBy k.a es).map Event.attributes).map (readCall (nameOf k.i0)) = (k.calls c tr).map fun e => some e.2 := by
  rcases C73_announced hc hw hl hk with h | h
  · exact .inl h
  · right
    generalize k.calls c tr = cs at h
    generalize saidBy k.a es = es' at h
    induction h with
    | nil => rfl
    | cons g _ ih =>
      simp only [List.map_cons, List.cons.injEq]
      exact ⟨readCall_of h0 h1 hne g, ih⟩

/-- C74, the factory and the three requests to a pair: each kind of announcement is recognised by its `action`. -/
theorem C74_action (e : Event) :
    (e.attributes.lookup (asc "action") = some (asc "swap") ↔ ∃ s r o a x y z u, e = .swap s r o a x y z u) ∧
    (e.attributes.lookup (asc "action") = some (asc "provide_liquidity") ↔ ∃ s r as x, e = .provideLiquidity s r as x) ∧
    (e.attributes.lookup (asc "action") = some (asc "withdraw_liquidity") ↔ ∃ s x as, e = .withdrawLiquidity s x as) ∧
    (e.attributes.lookup (asc "action") = some (asc "update_config") ↔ e = .updateConfig) ∧
    (e.attributes.lookup (asc "action") = some (asc "create_pair") ↔ ∃ is, e = .createPair is) ∧
    (e.attributes.lookup (asc "action") = some (asc "add_allow_native_token") ↔ ∃ d n, e = .addNativeToken d n) ∧
    (e.attributes.lookup (asc "action") = none ↔ (∃ t, e = .liquidityToken t) ∨ ∃ p t, e = .pairCreated p t) := by
  have l1 : (asc "action" == asc "liquidity_token_addr") = false := by decide
  have l2 : (asc "action" == asc "pair_contract_addr") = false := by decide
  cases e
  case pairCreated => simp [Event.attributes, List.lookup, l1, l2]
  case liquidityToken => simp [Event.attributes, l1]
  all_goals (simp [Event.attributes]; decide)

/-! ## Examples -/

namespace Demo

example := C74_indexer lawful deployed_reachable trade_logged sound_AB clear_AB.1 clear_AB.2.1 clear_AB.2.2
/-- What the indexer reads off the texts of `trade`. -/
example : ((saidBy pAB (logs trade deployed)).map Event.attributes).map (readCall tA) =
    [some (.swap0 1000), some (.withdraw 500)] := by
  rw [trade_log]; decide +kernel
/-- A deposit that names the assets the other way round is read correctly. -/
example : readCall (asc "uaura") (Event.provideLiquidity user user (⟨.token (asc "aura1xyz"), 34⟩, ⟨.native (asc "uaura"), 12⟩) 5).attributes =
    some (.deposit 12 34) := by decide +kernel
example := (C74_action .updateConfig).2.2.2.1.mpr rfl

end Demo
end Halo
