import Verif.Spec.Ledger
import Verif.Lemmas.ActorL
import Verif.Lemmas.DemoRun
/-! # C28, C30, C31, C51: tokens and money over all histories -/

namespace Halo
open Finset

/-! ## C28 -/

/-- C28: in every reachable state the balances of every halo token add up to its total supply, which fits in 128
bits. -/
theorem C28_balances_sum_to_supply {c : Chain} {w : World} (hw : Reachable c w) {a : Addr} {adm : Option Addr}
    {s : TokenState} (ha : w.contracts a = some ⟨adm, .token s⟩) :
    Spec.SumsTo s.balances.getD0 s.totalSupply ∧ s.totalSupply < 2 ^ 128 := by
  have h := hw.tokensOk a adm s ha
  refine ⟨?_, h.fits⟩
  rw [← h.total]
  exact AMap.sumsTo_total _ h.nodup

/-- C28 corollary: nobody ever holds more than the supply. -/
theorem C28_balance_le_supply {c : Chain} {w : World} (hw : Reachable c w) {a : Addr} {adm : Option Addr}
    {s : TokenState} (ha : w.contracts a = some ⟨adm, .token s⟩) (u v : Addr) (hne : u ≠ v) :
    s.balances.getD0 u + s.balances.getD0 v ≤ s.totalSupply := by
  obtain ⟨⟨S, h1, h2⟩, _⟩ := C28_balances_sum_to_supply hw ha
  rw [← h2]
  have key : ∑ x ∈ S, s.balances.getD0 x = ∑ x ∈ insert u (insert v S), s.balances.getD0 x := by
    refine sum_subset (fun x hx => by simp [hx]) (fun x _ hx => h1 x hx)
  rw [key]
  have hsub : ({u, v} : Finset Addr) ⊆ insert u (insert v S) := by
    intro x hx
    simp only [mem_insert, mem_singleton] at hx
    rcases hx with rfl | rfl <;> simp
  calc s.balances.getD0 u + s.balances.getD0 v = ∑ x ∈ ({u, v} : Finset Addr), s.balances.getD0 x :=
        (sum_pair hne).symm
    _ ≤ _ := sum_le_sum_of_subset hsub

example : ∃ w adm s, Reachable Demo.chain w ∧ w.contracts Demo.lpAB = some ⟨adm, .token s⟩ ∧ s.totalSupply = 14142 := by
  obtain ⟨adm, s, h1, h2⟩ := Demo.exists_token Demo.deployed_lp
  exact ⟨_, adm, s, Demo.deployed_reachable, h1, by simpa using h2⟩

/-! ## C31 -/

/-- A well-formed token description. -/
structure TokenMeta (name symbol : Str) (decimals : Nat) : Prop where
  name_lo : 3 ≤ name.length
  name_hi : name.length ≤ 50
  symbol_lo : 3 ≤ symbol.length
  symbol_hi : symbol.length ≤ 12
  letters : ∀ b ∈ symbol, b = 45 ∨ (65 ≤ b ∧ b ≤ 90) ∨ (97 ≤ b ∧ b ≤ 122)
  decimals_hi : decimals ≤ 18

/-- C31: every token in every reachable state is well described, and its supply is within its cap. -/
theorem C31_tokens_valid {c : Chain} {w : World} (hw : Reachable c w) {a : Addr} {adm : Option Addr}
    {s : TokenState} (ha : w.contracts a = some ⟨adm, .token s⟩) :
    TokenMeta s.name s.symbol s.decimals ∧
    ∀ m k, s.mint = some m → m.cap = some k → s.totalSupply ≤ k := by
  have h := hw.tokensOk a adm s ha
  have hn := h.name
  have hs := h.symbol
  unfold Token.isValidName at hn
  unfold Token.isValidSymbol at hs
  split at hs
  · cases hs
  · rename_i h2
    simp only [Bool.not_eq_true', Bool.or_eq_false_iff, decide_eq_false_iff_not, not_lt] at hn
    refine ⟨⟨hn.1, hn.2, by omega, by omega, ?_, h.decimals⟩, h.cap⟩
    intro b hb
    have h3 := List.all_eq_true.mp hs b hb
    simp only [Bool.not_eq_true', Bool.and_eq_false_iff, Bool.or_eq_false_iff, decide_eq_false_iff_not,
      ne_eq, Decidable.not_not] at h3
    rcases h3 with (h3 | h3) | h3
    · exact .inl h3
    · exact .inr (.inl ⟨UInt8.not_lt.mp h3.1, UInt8.not_lt.mp h3.2⟩)
    · exact .inr (.inr ⟨UInt8.not_lt.mp h3.1, UInt8.not_lt.mp h3.2⟩)

/-- The supply is at most `k` and always will be: there is no minter, or one capped at `k`. -/
private def Bounded (k : Nat) (s : TokenState) : Prop :=
  s.totalSupply ≤ k ∧ ∀ m, s.mint = some m → m.cap = some k

private theorem Bounded.eff {api : Api} {blk : Block} {s s' : TokenState} {sender : Addr} {m : ExecMsg}
    {r : Response} {k : Nat} (h : Token.Eff api blk s sender m s' r) (hb : Bounded k s) : Bounded k s' := by
  obtain ⟨h1, h2⟩ := hb
  cases h with
  | transfer | send | increase | decrease | decreaseZero | transferFrom | sendFrom => exact ⟨h1, h2⟩
  | burn | burnFrom => exact ⟨le_trans (Nat.sub_le _ _) h1, h2⟩
  | mint dst x md _ _ hm _ _ hcap => exact ⟨hcap k (h2 md hm), h2⟩
  | renounce => exact ⟨h1, fun m hm => by cases hm⟩
  | newMinter a md hm =>
    refine ⟨h1, fun m hm2 => ?_⟩
    cases hm2
    exact h2 md hm

/-- A step-wise property of token states holds over histories. -/
theorem later_token {c : Chain} {ρ : TokenState → TokenState → Prop} (hrefl : ∀ s, ρ s s)
    (htrans : ∀ x y z, ρ x y → ρ y z → ρ x z)
    (hcall : ∀ api blk s sender m s' r, Token.Eff api blk s sender m s' r → ρ s s') {w w' : World}
    (hl : Later c w w') : TokStep ρ w w' := by
  induction hl with
  | refl => exact TokStep.refl hrefl _
  | step v w' _ hs ih =>
    refine TokStep.trans htrans ih ?_
    cases hs with
    | tx adv gas _ _ signer m _ h =>
      obtain ⟨n, hr⟩ := runTx_inv h
      exact run_rel (Q := fun _ => True) (T := TokStep ρ) (TokStep.refl hrefl)
        (fun _ _ _ => TokStep.trans htrans)
        (fun n w f w' fs rest _ hs => ⟨TokStep.of_step hrefl
          (fun adm me s s' m r _ hx => hcall _ _ _ _ _ _ _ (Token.execute_inv hx)) hs, trivial⟩) trivial hr
    | block => intro t adm k ht; exact TokStep.refl hrefl v t adm k ht
    | env => intro t adm k ht; exact TokStep.refl hrefl v t adm k ht

/-- C31: a cap binds forever, whoever becomes minter and even after minting is renounced: if a token has cap `k`
in some state, its supply is at most `k` then and in every later state. -/
theorem C31_cap_forever {c : Chain} {w w' : World} (hw : Reachable c w) (hl : Later c w w') {a : Addr}
    {adm adm' : Option Addr} {s s' : TokenState} {m : MinterData} {k : Nat}
    (ha : w.contracts a = some ⟨adm, .token s⟩) (hm : s.mint = some m) (hk : m.cap = some k)
    (ha' : w'.contracts a = some ⟨adm', .token s'⟩) : s'.totalSupply ≤ k := by
  have h0 := (C31_tokens_valid hw ha).2 m k hm hk
  have h := later_token (ρ := fun s s' => Bounded k s → Bounded k s') (fun _ h => h)
    (fun _ _ _ h1 h2 h => h2 (h1 h)) (fun _ _ _ _ _ _ _ h => Bounded.eff h) hl
  obtain ⟨_, _, h, _⟩ := h a adm _ ha
  rcases h s rfl with ⟨s2, h2, h3⟩ | h2
  · rw [ha'] at h2
    cases h2
    refine (h3 ⟨h0, fun m2 hm2 => ?_⟩).1
    rw [hm] at hm2; cases hm2; exact hk
  · rw [ha'] at h2; cases h2

/-- C31: without a minter the supply never grows again. -/
theorem C31_no_minter_no_growth {c : Chain} {w w' : World} (hl : Later c w w') {a : Addr}
    {adm adm' : Option Addr} {s s' : TokenState} (ha : w.contracts a = some ⟨adm, .token s⟩) (hm : s.mint = none)
    (ha' : w'.contracts a = some ⟨adm', .token s'⟩) : s'.totalSupply ≤ s.totalSupply ∧ s'.mint = none := by
  have h := later_token (ρ := fun s s' => s.mint = none → s'.totalSupply ≤ s.totalSupply ∧ s'.mint = none)
    (fun _ h => ⟨le_refl _, h⟩)
    (fun _ _ _ h1 h2 h => ⟨le_trans (h2 (h1 h).2).1 (h1 h).1, (h2 (h1 h).2).2⟩)
    (fun _ _ _ _ _ _ _ h hn => by
      cases h with
      | transfer | send | increase | decrease | decreaseZero | transferFrom | sendFrom => exact ⟨le_refl _, hn⟩
      | burn | burnFrom => exact ⟨Nat.sub_le _ _, hn⟩
      | mint dst x md _ _ hm => rw [hn] at hm; cases hm
      | renounce md hm => rw [hn] at hm; cases hm
      | newMinter a md hm => rw [hn] at hm; cases hm) hl
  obtain ⟨_, _, h, _⟩ := h a adm _ ha
  rcases h s rfl with ⟨s2, h2, h3⟩ | h2
  · rw [ha'] at h2
    cases h2
    exact h3 hm
  · rw [ha'] at h2; cases h2

/-- C31: name, symbol and decimals of a token never change. -/
theorem C31_meta_immutable {c : Chain} {w w' : World} (hl : Later c w w') {a : Addr}
    {adm adm' : Option Addr} {s s' : TokenState} (ha : w.contracts a = some ⟨adm, .token s⟩)
    (ha' : w'.contracts a = some ⟨adm', .token s'⟩) :
    s'.name = s.name ∧ s'.symbol = s.symbol ∧ s'.decimals = s.decimals := by
  have h := later_token
    (ρ := fun s s' => s'.name = s.name ∧ s'.symbol = s.symbol ∧ s'.decimals = s.decimals)
    (fun _ => ⟨rfl, rfl, rfl⟩)
    (fun _ _ _ h1 h2 => ⟨h2.1.trans h1.1, h2.2.1.trans h1.2.1, h2.2.2.trans h1.2.2⟩)
    (fun _ _ _ _ _ _ _ h => by cases h <;> exact ⟨rfl, rfl, rfl⟩) hl
  obtain ⟨_, _, h, _⟩ := h a adm _ ha
  rcases h s rfl with ⟨s2, h2, h3⟩ | h2
  · rw [ha'] at h2
    cases h2
    exact h3
  · rw [ha'] at h2; cases h2

/-- A token with cap 90000 exists, and later its minter mints up to the cap. -/
example : ∃ w w' adm adm' s s' m, Reachable Demo.chain w ∧ Later Demo.chain w w' ∧
    w.contracts Demo.tA = some ⟨adm, .token s⟩ ∧ s.mint = some m ∧ m.cap = some 90000 ∧
    w'.contracts Demo.tA = some ⟨adm', .token s'⟩ ∧ s'.totalSupply = 90000 := by
  let msgs : List CosmosMsg := [.exec Demo.tA (.mint Demo.user 40000) []]
  obtain ⟨adm, s, h1, h2⟩ := Demo.exists_token (w := Demo.deployed) (a := Demo.tA)
    (t := fun p => p.2.mint.isSome && (p.2.mint.bind (·.cap) == some 90000)) (by decide +kernel)
  have hr : Demo.runs msgs Demo.deployed = .ok (Demo.worldOf (Demo.runs msgs Demo.deployed)) :=
    Demo.worldOf_eq (by decide +kernel)
  obtain ⟨adm', s', h3, h4⟩ := Demo.exists_token (w := Demo.worldOf (Demo.runs msgs Demo.deployed)) (a := Demo.tA)
    (t := fun p => p.2.totalSupply == 90000) (by decide +kernel)
  simp only [Bool.and_eq_true, Option.isSome_iff_exists] at h2
  obtain ⟨⟨m, hm⟩, h2⟩ := h2
  rw [hm] at h2
  exact ⟨_, _, adm, adm', s, s', m, Demo.deployed_reachable, Demo.later_runs hr, h1, hm, by simpa using h2, h3,
    by simpa using h4⟩

/-! ## C51 -/

/-- C51: a transaction only moves native coins: of every denomination, whatever contracts run. -/
theorem C51_native_supply_conserved {c : Chain} {adv : Adv} {gas : Nat} {w w' : World} {signer : Addr}
    {m : CosmosMsg} (h : runTx c adv gas w signer m = .ok w') (d : Denom) :
    Spec.Conserved (w.bal d) (w'.bal d) := by
  obtain ⟨n, hr⟩ := runTx_inv h
  have key : ∀ {v v' : World} {src dst : Addr} {coins : List Coin}, Moved v v' src dst coins →
      Spec.Conserved (v.bal d) (v'.bal d) := by
    intro v v' src dst coins hm
    by_cases hsd : src = dst
    · exact ⟨∅, fun a _ => hm.same hsd d a, rfl⟩
    · exact Spec.Conserved.of_move hsd (hm.src_bal hsd d) (hm.dst_bal hsd d) (fun a h1 h2 => hm.others d a h1 h2)
  refine run_rel (Q := fun _ => True) (T := fun w w' => Spec.Conserved (w.bal d) (w'.bal d))
    (fun _ => .refl _) (fun _ _ _ => .trans) (fun n w f w' fs rest _ hs => ⟨?_, trivial⟩) trivial hr
  cases hs with
  | bank _ _ _ _ _ _ _ _ hm =>
    have h2 := key (moveCoins_inv hm)
    exact h2
  | token _ _ _ _ _ me _ _ _ _ _ _ hm | pair _ _ _ _ _ me _ _ _ _ _ _ hm | factory _ _ _ _ _ me _ _ _ _ _ _ hm
  | router _ _ _ _ _ me _ _ _ _ _ _ hm =>
    have h2 := key (moveCoins_inv hm)
    exact h2
  | other _ _ _ _ _ _ _ _ _ _ hm =>
    have h2 := key (moveCoins_inv hm)
    exact h2
  | inst _ _ _ _ _ _ _ _ _ _ _ _ _ _ hm =>
    have h2 := key (moveCoins_inv hm)
    exact h2
  | migrate | admin | replyPair | replyFactory | replyOther => exact .refl _

/-- A transaction that moves coins. -/
example : ∃ w', runTx Demo.chain Demo.idle 5 Demo.genesis Demo.user (.bankSend Demo.user2 [⟨[117], 400⟩]) = .ok w' ∧
    w'.bal [117] Demo.user2 = 400 := ⟨_, rfl, by decide +kernel⟩

/-! ## C30 -/

/-- The allowance `o` has granted to `sp` (0 if none). -/
def allowanceOf (s : TokenState) (o sp : Addr) : Nat :=
  match s.allowances.get (o, sp) with
  | some a => a.amount
  | none => 0

/-- Money left an account only through the allowances it had granted: no allowance grew, and whatever the balance
lost was taken out of allowances. -/
def SpentOnly (b : Nat) (al : Addr → Nat) (b' : Nat) (al' : Addr → Nat) : Prop :=
  (∀ sp, al' sp ≤ al sp) ∧
  ∃ S : Finset Addr, (∀ sp, sp ∉ S → al' sp = al sp) ∧ b + ∑ sp ∈ S, al' sp ≤ b' + ∑ sp ∈ S, al sp

theorem SpentOnly.refl (b : Nat) (al : Addr → Nat) : SpentOnly b al b al :=
  ⟨fun _ => le_refl _, ∅, fun _ _ => rfl, le_refl _⟩

theorem SpentOnly.trans {b1 b2 b3 : Nat} {a1 a2 a3 : Addr → Nat} (h1 : SpentOnly b1 a1 b2 a2)
    (h2 : SpentOnly b2 a2 b3 a3) : SpentOnly b1 a1 b3 a3 := by
  obtain ⟨l1, S, e1, s1⟩ := h1
  obtain ⟨l2, T, e2, s2⟩ := h2
  refine ⟨fun sp => le_trans (l2 sp) (l1 sp), S ∪ T, ?_, ?_⟩
  · intro sp h
    rw [mem_union, not_or] at h
    rw [e2 sp h.2, e1 sp h.1]
  · have g1 : b1 + ∑ sp ∈ S ∪ T, a2 sp ≤ b2 + ∑ sp ∈ S ∪ T, a1 sp := by
      rw [← sum_sdiff (f := a2) (subset_union_left (s₁ := S) (s₂ := T)),
        ← sum_sdiff (f := a1) (subset_union_left (s₁ := S) (s₂ := T))]
      have : ∑ x ∈ (S ∪ T) \ S, a2 x = ∑ x ∈ (S ∪ T) \ S, a1 x :=
        sum_congr rfl fun a ha => e1 a (mem_sdiff.mp ha).2
      omega
    have g2 : b2 + ∑ sp ∈ S ∪ T, a3 sp ≤ b3 + ∑ sp ∈ S ∪ T, a2 sp := by
      rw [← sum_sdiff (f := a3) (subset_union_right (s₁ := S) (s₂ := T)),
        ← sum_sdiff (f := a2) (subset_union_right (s₁ := S) (s₂ := T))]
      have : ∑ x ∈ (S ∪ T) \ T, a3 x = ∑ x ∈ (S ∪ T) \ T, a2 x :=
        sum_congr rfl fun a ha => e2 a (mem_sdiff.mp ha).2
      omega
    omega

/-- Without any allowance nothing can be taken. -/
theorem SpentOnly.no_allowance {b b' : Nat} {al al' : Addr → Nat} (h : SpentOnly b al b' al')
    (h0 : ∀ sp, al sp = 0) : b ≤ b' := by
  obtain ⟨l, S, _, s⟩ := h
  have : ∑ sp ∈ S, al sp = 0 := sum_eq_zero fun sp _ => h0 sp
  omega

private theorem spent_eff {api : Api} {blk : Block} {s s' : TokenState} {sender u : Addr} {m : ExecMsg}
    {r : Response} (h : Token.Eff api blk s sender m s' r) (hu : sender ≠ u) :
    SpentOnly (s.balances.getD0 u) (allowanceOf s u) (s'.balances.getD0 u) (allowanceOf s' u) := by
  have gain : ∀ {b b' : Nat} {al : Addr → Nat}, b ≤ b' → SpentOnly b al b' al := fun hb =>
    ⟨fun _ => le_refl _, ∅, fun _ _ => rfl, by simpa using hb⟩
  have spend : ∀ {o : Addr} {x : Nat} {a : Allowance} {s' : TokenState}, s.allowances.get (o, sender) = some a →
      x ≤ a.amount → s'.allowances = s.allowances.set (o, sender) ⟨a.amount - x, a.expires⟩ →
      s.balances.getD0 u ≤ s'.balances.getD0 u + (if o = u then x else 0) →
      SpentOnly (s.balances.getD0 u) (allowanceOf s u) (s'.balances.getD0 u) (allowanceOf s' u) := by
    intro o x a s' ha hx hs hb
    by_cases ho : o = u
    · subst ho
      have e1 : allowanceOf s o sender = a.amount := by simp [allowanceOf, ha]
      have e2 : allowanceOf s' o sender = a.amount - x := by simp [allowanceOf, hs, AMap.get_set_self]
      have e3 : ∀ sp, sp ≠ sender → allowanceOf s' o sp = allowanceOf s o sp := by
        intro sp hsp
        have hne : (o, sp) ≠ (o, sender) := fun h => hsp (Prod.mk.inj h).2
        simp only [allowanceOf, hs, AMap.get_set_ne _ _ hne]
      refine ⟨fun sp => ?_, {sender}, fun sp hsp => e3 sp (by simpa using hsp), ?_⟩
      · by_cases h : sp = sender
        · subst h; rw [e1, e2]; omega
        · rw [e3 sp h]
      · simp only [sum_singleton, e1, e2]
        simp only [if_true] at hb
        omega
    · have e3 : allowanceOf s' u = allowanceOf s u := by
        funext sp
        have hne : (u, sp) ≠ (o, sender) := fun h => ho (Prod.mk.inj h).1.symm
        simp only [allowanceOf, hs, AMap.get_set_ne _ _ hne]
      rw [e3]
      simp only [ho, if_false, Nat.add_zero] at hb
      exact gain hb
  cases h with
  | transfer dst x | send dst x =>
    refine gain ?_
    dsimp only
    rw [Token.moveBal_get]
    simp only [Ne.symm hu, if_false]
    split <;> omega
  | burn =>
    refine gain ?_
    simp [AMap.getD0_set, Ne.symm hu]
  | mint dst x =>
    refine gain ?_
    dsimp only
    rw [AMap.getD0_set]
    split
    · rename_i h; rw [h]; omega
    · exact le_refl _
  | increase sp x e a | decrease sp x e a =>
    have e3 : allowanceOf { s with allowances := s.allowances.set (sender, sp) a } u = allowanceOf s u := by
      funext sp'
      have hne : (u, sp') ≠ (sender, sp) := fun h => hu (Prod.mk.inj h).1.symm
      simp only [allowanceOf, AMap.get_set_ne _ _ hne]
    rw [e3]; exact gain (le_refl _)
  | decreaseZero sp x e =>
    have e3 : allowanceOf { s with allowances := s.allowances.erase (sender, sp) } u = allowanceOf s u := by
      funext sp'
      have hne : (u, sp') ≠ (sender, sp) := fun h => hu (Prod.mk.inj h).1.symm
      simp only [allowanceOf, AMap.get_erase, if_neg hne]
    rw [e3]; exact gain (le_refl _)
  | transferFrom o dst x a _ _ ha _ hle | sendFrom o dst x _ a _ _ ha _ hle =>
    refine spend ha hle rfl ?_
    dsimp only
    rw [Token.moveBal_get]
    by_cases ho : u = o
    · subst ho; simp only [if_true]; split <;> omega
    · simp only [ho, if_false]; split <;> omega
  | burnFrom o x a _ ha _ hle =>
    refine spend ha hle rfl ?_
    dsimp only
    rw [AMap.getD0_set]
    by_cases ho : u = o
    · subst ho; simp only [if_true]; omega
    · simp only [ho, if_false]; omega
  | renounce => exact gain (le_refl _)
  | newMinter => exact gain (le_refl _)

/-- C30: a transaction signed by somebody else, whatever contracts it runs, never reduces a user's native
balances; and it reduces the user's balance of a halo token only by amounts drawn from allowances the user had
granted before the transaction. -/
theorem C30_only_own_money {c : Chain} {adv : Adv} {gas : Nat} {w w' : World} {signer u : Addr} {m : CosmosMsg}
    (hw : Reachable c w) (hu : c.IsUser u) (hne : signer ≠ u) (h : runTx c adv gas w signer m = .ok w') :
    (∀ d, w.bal d u ≤ w'.bal d u) ∧
    ∀ t adm adm' s s', w.contracts t = some ⟨adm, .token s⟩ → w'.contracts t = some ⟨adm', .token s'⟩ →
      SpentOnly (s.balances.getD0 u) (allowanceOf s u) (s'.balances.getD0 u) (allowanceOf s' u) := by
  obtain ⟨n, hr⟩ := runTx_inv h
  have hf : ∀ g ∈ [Frame.msg signer (plain m)], g.actor ≠ u := by simpa [Frame.actor] using hne
  constructor
  · intro d
    exact run_without hu.1 (T := fun v v' => v.bal d u ≤ v'.bal d u) (fun _ => le_refl _)
      (fun _ _ _ => le_trans) (fun _ _ _ _ _ _ ha hs => bal_step hs ha d) hw.contractsAt hf hr
  · intro t adm adm' s s' ht ht'
    have hrefl : ∀ s : TokenState, SpentOnly (s.balances.getD0 u) (allowanceOf s u) (s.balances.getD0 u) (allowanceOf s u) :=
      fun _ => .refl _ _
    have key := run_without hu.1 (T := TokStep fun s s' =>
        SpentOnly (s.balances.getD0 u) (allowanceOf s u) (s'.balances.getD0 u) (allowanceOf s' u))
      (TokStep.refl hrefl) (fun _ _ _ => TokStep.trans fun _ _ _ => .trans)
      (fun _ _ f _ _ _ ha hs => TokStep.of_step hrefl
        (fun _ _ _ _ _ _ _ hx => spent_eff (Token.execute_inv hx) ha) hs) hw.contractsAt hf hr
    obtain ⟨_, _, key, _⟩ := key t adm _ ht
    rcases key s rfl with ⟨s2, h2, h3⟩ | h2
    · rw [ht'] at h2
      cases h2
      exact h3
    · rw [ht'] at h2; cases h2

/-- C30 corollary: a token balance on which no allowance was granted never falls in such a transaction. -/
theorem C30_no_allowance {c : Chain} {adv : Adv} {gas : Nat} {w w' : World} {signer u : Addr} {m : CosmosMsg}
    (hw : Reachable c w) (hu : c.IsUser u) (hne : signer ≠ u) (h : runTx c adv gas w signer m = .ok w')
    {t : Addr} {adm adm' : Option Addr} {s s' : TokenState} (ht : w.contracts t = some ⟨adm, .token s⟩)
    (ht' : w'.contracts t = some ⟨adm', .token s'⟩) (h0 : ∀ sp, s.allowances.get (u, sp) = none) :
    s.balances.getD0 u ≤ s'.balances.getD0 u :=
  ((C30_only_own_money hw hu hne h).2 t adm adm' s s' ht ht').no_allowance
    (fun sp => by simp [allowanceOf, h0 sp])

/-- Another user, to whom `user` granted 700, draws 300 of it. -/
example : ∃ w w' adm adm' s s' m, Reachable Demo.chain w ∧ Demo.chain.IsUser Demo.user ∧ Demo.user2 ≠ Demo.user ∧
    runTx Demo.chain Demo.idle 5 w Demo.user2 m = .ok w' ∧
    w.contracts Demo.tA = some ⟨adm, .token s⟩ ∧ w'.contracts Demo.tA = some ⟨adm', .token s'⟩ ∧
    s'.balances.getD0 Demo.user + 300 = s.balances.getD0 Demo.user := by
  let msgs : List CosmosMsg := [.exec Demo.tA (.increaseAllowance Demo.user2 700 none) []]
  let m : CosmosMsg := .exec Demo.tA (.transferFrom Demo.user Demo.user2 300) []
  have hr : Demo.runs msgs Demo.deployed = .ok (Demo.worldOf (Demo.runs msgs Demo.deployed)) :=
    Demo.worldOf_eq (by decide +kernel)
  obtain ⟨adm, s, h1, h2⟩ := Demo.exists_token (w := Demo.worldOf (Demo.runs msgs Demo.deployed)) (a := Demo.tA)
    (t := fun p => p.2.balances.getD0 Demo.user == 40000) (by decide +kernel)
  have hx : runTx Demo.chain Demo.idle 5 (Demo.worldOf (Demo.runs msgs Demo.deployed)) Demo.user2 m =
      .ok (Demo.worldOf (runTx Demo.chain Demo.idle 5 (Demo.worldOf (Demo.runs msgs Demo.deployed)) Demo.user2 m)) :=
    Demo.worldOf_eq (by decide +kernel)
  obtain ⟨adm', s', h3, h4⟩ := Demo.exists_token
    (w := Demo.worldOf (runTx Demo.chain Demo.idle 5 (Demo.worldOf (Demo.runs msgs Demo.deployed)) Demo.user2 m))
    (a := Demo.tA) (t := fun p => p.2.balances.getD0 Demo.user == 39700) (by decide +kernel)
  simp only [beq_iff_eq] at h2 h4
  exact ⟨_, _, adm, adm', s, s', m, Demo.deployed_reachable.later (Demo.later_runs hr), Demo.isUser_user, by decide,
    hx, h1, h3, by omega⟩

end Halo
