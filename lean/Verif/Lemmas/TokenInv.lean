import Verif.Lemmas.TokenL
import Verif.Lemmas.RunL
import Verif.Spec.Ledger
/-! # Invariants of tokens over all histories (helper lemmas) -/

namespace Halo

namespace AMap
variable {K V : Type} [DecidableEq K]

theorem keys_set (m : AMap K V) (k : K) (v : V) :
    (m.set k v).map Prod.fst = if k ∈ m.map Prod.fst then m.map Prod.fst else m.map Prod.fst ++ [k] := by
  induction m with
  | nil => simp [set]
  | cons hd t ih =>
    obtain ⟨k2, v2⟩ := hd
    by_cases hk : k2 = k
    · simp [set, hk]
    · simp only [set, hk, if_false, List.map_cons, List.mem_cons, ih]
      by_cases h : k ∈ t.map Prod.fst
      · rw [if_pos h, if_pos (.inr h)]
      · rw [if_neg h, if_neg (by simp only [not_or]; exact ⟨fun e => hk e.symm, h⟩)]
        rfl

theorem nodup_set {m : AMap K V} (h : (m.map Prod.fst).Nodup) (k : K) (v : V) :
    ((m.set k v).map Prod.fst).Nodup := by
  rw [keys_set]
  split
  · exact h
  · rename_i hk
    rw [List.nodup_append]
    refine ⟨h, by simp, ?_⟩
    intro a ha b hb
    simp only [List.mem_singleton] at hb
    subst hb
    rintro rfl
    exact hk ha

theorem get_not_mem {m : AMap K V} {k : K} (h : k ∉ m.map Prod.fst) : m.get k = none := by
  induction m with
  | nil => rfl
  | cons hd t ih =>
    obtain ⟨k2, v2⟩ := hd
    simp only [List.map_cons, List.mem_cons, not_or] at h
    simp [get, Ne.symm h.1, ih h.2]

theorem sum_keys (m : AMap Addr Nat) (h : (m.map Prod.fst).Nodup) :
    ∑ a ∈ (m.map Prod.fst).toFinset, m.getD0 a = m.total := by
  rw [List.sum_toFinset _ h]
  unfold total
  congr 1
  rw [List.map_map]
  apply List.map_congr_left
  intro e he
  obtain ⟨k, v⟩ := e
  simp only [Function.comp]
  clear * - h he
  induction m with
  | nil => cases he
  | cons hd t ih =>
    obtain ⟨k2, v2⟩ := hd
    simp only [List.map_cons, List.nodup_cons] at h
    rcases List.mem_cons.mp he with he | he
    · cases he; simp [getD0, get]
    · have : k2 ≠ k := by
        rintro rfl
        exact h.1 (List.mem_map.mpr ⟨_, he, rfl⟩)
      have e := ih h.2 he
      simp only [getD0, get, this, if_false] at e ⊢
      exact e

theorem sumsTo_total (m : AMap Addr Nat) (h : (m.map Prod.fst).Nodup) : Spec.SumsTo m.getD0 m.total := by
  refine ⟨(m.map Prod.fst).toFinset, ?_, sum_keys m h⟩
  intro a ha
  rw [List.mem_toFinset] at ha
  simp [getD0, get_not_mem ha]

end AMap

namespace Token

/-- What holds of every token state. -/
structure Inv (s : TokenState) : Prop where
  nodup : (s.balances.map Prod.fst).Nodup
  total : s.balances.total = s.totalSupply
  fits : s.totalSupply < B128
  name : isValidName s.name = true
  symbol : isValidSymbol s.symbol = true
  decimals : s.decimals ≤ 18
  cap : ∀ m k, s.mint = some m → m.cap = some k → s.totalSupply ≤ k

theorem nodup_moveBal {b : AMap Addr Nat} (h : (b.map Prod.fst).Nodup) (src dst : Addr) (x : Nat) :
    ((moveBal b src dst x).map Prod.fst).Nodup := AMap.nodup_set (AMap.nodup_set h _ _) _ _

theorem Inv.eff {api : Api} {blk : Block} {s s' : TokenState} {sender : Addr} {m : ExecMsg} {r : Response}
    (hi : Inv s) (h : Eff api blk s sender m s' r) : Inv s' := by
  have tot : ∀ a x, x ≤ s.balances.getD0 a → x ≤ s.totalSupply →
      (s.balances.set a (s.balances.getD0 a - x)).total = s.totalSupply - x := by
    intro a x h1 h2
    have := AMap.total_set s.balances a (s.balances.getD0 a - x)
    have := hi.total
    omega
  cases h with
  | transfer dst x _ _ hb _ =>
    exact ⟨nodup_moveBal hi.nodup _ _ _, (moveBal_total _ _ _ _ hb).trans hi.total, hi.fits, hi.name, hi.symbol,
      hi.decimals, hi.cap⟩
  | send dst x _ _ _ hb _ =>
    exact ⟨nodup_moveBal hi.nodup _ _ _, (moveBal_total _ _ _ _ hb).trans hi.total, hi.fits, hi.name, hi.symbol,
      hi.decimals, hi.cap⟩
  | transferFrom _ dst x _ _ _ _ _ _ hb _ =>
    exact ⟨nodup_moveBal hi.nodup _ _ _, (moveBal_total _ _ _ _ hb).trans hi.total, hi.fits, hi.name, hi.symbol,
      hi.decimals, hi.cap⟩
  | sendFrom _ dst x _ _ _ _ _ _ _ hb _ =>
    exact ⟨nodup_moveBal hi.nodup _ _ _, (moveBal_total _ _ _ _ hb).trans hi.total, hi.fits, hi.name, hi.symbol,
      hi.decimals, hi.cap⟩
  | burn x _ hb hs =>
    refine ⟨AMap.nodup_set hi.nodup _ _, tot _ _ hb hs, lt_of_le_of_lt (Nat.sub_le _ _) hi.fits, hi.name, hi.symbol,
      hi.decimals, fun m k h1 h2 => le_trans (Nat.sub_le _ _) (hi.cap m k h1 h2)⟩
  | burnFrom _ x _ _ _ _ _ hb hs =>
    refine ⟨AMap.nodup_set hi.nodup _ _, tot _ _ hb hs, lt_of_le_of_lt (Nat.sub_le _ _) hi.fits, hi.name, hi.symbol,
      hi.decimals, fun m k h1 h2 => le_trans (Nat.sub_le _ _) (hi.cap m k h1 h2)⟩
  | mint dst x md _ _ hm _ hf hcap _ =>
    refine ⟨AMap.nodup_set hi.nodup _ _, ?_, hf, hi.name, hi.symbol, hi.decimals, ?_⟩
    · have := AMap.total_set s.balances dst (s.balances.getD0 dst + x)
      have := hi.total
      simp only
      omega
    · intro m k h1 h2
      rw [hm] at h1
      cases h1
      exact hcap k h2
  | increase => exact ⟨hi.nodup, hi.total, hi.fits, hi.name, hi.symbol, hi.decimals, hi.cap⟩
  | decrease => exact ⟨hi.nodup, hi.total, hi.fits, hi.name, hi.symbol, hi.decimals, hi.cap⟩
  | decreaseZero => exact ⟨hi.nodup, hi.total, hi.fits, hi.name, hi.symbol, hi.decimals, hi.cap⟩
  | renounce => exact ⟨hi.nodup, hi.total, hi.fits, hi.name, hi.symbol, hi.decimals, by simp⟩
  | newMinter a md hm _ _ =>
    refine ⟨hi.nodup, hi.total, hi.fits, hi.name, hi.symbol, hi.decimals, ?_⟩
    intro m k h1 h2
    simp only [Option.some.injEq] at h1
    subst h1
    exact hi.cap md k hm h2

theorem createLoop_inv {api : Api} {l : List (Str × Nat)} :
    ∀ {b b' : AMap Addr Nat} {n n' : Nat}, createLoop api l b n = .ok (b', n') →
      (l.map Prod.fst).Nodup → (∀ a ∈ l.map Prod.fst, a ∉ b.map Prod.fst) → (b.map Prod.fst).Nodup → b.total = n →
      n < B128 → (b'.map Prod.fst).Nodup ∧ b'.total = n' ∧ n' < B128 := by
  induction l with
  | nil =>
    intro b b' n n' h _ _ h1 h2 h3
    cases h
    exact ⟨h1, h2, h3⟩
  | cons hd t ih =>
    obtain ⟨a, x⟩ := hd
    intro b b' n n' h hl hd hn ht hb
    simp only [createLoop, bind_eq_ok, Uint128.add_eq_ok] at h
    obtain ⟨a, h1, _, ⟨h2, rfl⟩, h3⟩ := h
    obtain ⟨rfl, h1⟩ := validate_self h1
    simp only [List.map_cons, List.nodup_cons, List.mem_cons, forall_eq_or_imp] at hl hd
    have hk : (b.set a x).map Prod.fst = b.map Prod.fst ++ [a] := by
      rw [AMap.keys_set, if_neg hd.1]
    refine ih h3 hl.2 ?_ (AMap.nodup_set hn _ _) ?_ h2
    · intro a' ha'
      rw [hk, List.mem_append, not_or]
      refine ⟨hd.2 a' ha', ?_⟩
      simp only [List.mem_singleton]
      rintro rfl
      exact hl.1 ha'
    · have := AMap.total_set b a x
      have h0 : b.getD0 a = 0 := by simp [AMap.getD0, AMap.get_not_mem hd.1]
      omega

/-- A successful instantiation. -/
theorem instantiate_inv {api : Api} {m : TokenInst} {s : TokenState} (h : instantiate api m = .ok s) :
    s.name = m.name ∧ s.symbol = m.symbol ∧ s.decimals = m.decimals ∧ s.allowances = [] ∧
    s.mint = m.mint.map (fun r => ⟨r.minter, r.cap⟩) ∧ (∀ r, m.mint = some r → api.validate r.minter = .ok r.minter) ∧
    createAccounts api m.initialBalances = .ok (s.balances, s.totalSupply) ∧ Inv s := by
  unfold instantiate validate getCapInst at h
  simp only [bind_eq_ok, require_eq_ok, Prod.exists] at h
  obtain ⟨_, ⟨_, h1, _, h2, h3⟩, b, n, h4, h5⟩ := h
  have key : s = { name := m.name, symbol := m.symbol, decimals := m.decimals, totalSupply := n,
                   mint := m.mint.map (fun r => ⟨r.minter, r.cap⟩), balances := b, allowances := [] } ∧
      (∀ r, m.mint = some r → api.validate r.minter = .ok r.minter) ∧
      (∀ r k, m.mint = some r → r.cap = some k → n ≤ k) := by
    cases hm : m.mint with
    | none =>
      simp only [hm, Option.bind_none, bind_eq_ok, pure_eq_ok] at h5
      obtain ⟨_, _, _, rfl, rfl⟩ := h5
      exact ⟨rfl, by simp, by simp⟩
    | some r =>
      cases hk : r.cap with
      | none =>
        simp only [hm, Option.bind_some, hk, bind_eq_ok, pure_eq_ok] at h5
        obtain ⟨_, _, _, h6, _, rfl, rfl⟩ := h5
        obtain ⟨e, h6⟩ := validate_self h6
        refine ⟨by simp [hk, e], ?_, ?_⟩
        · intro r' hr'; cases hr'; exact h6
        · intro r' k hr' hk'; cases hr'; rw [hk] at hk'; cases hk'
      | some k =>
        simp only [hm, Option.bind_some, hk, bind_eq_ok, pure_eq_ok, require_eq_ok] at h5
        obtain ⟨_, h7, _, h6, _, rfl, rfl⟩ := h5
        obtain ⟨e, h6⟩ := validate_self h6
        refine ⟨by simp [hk, e], ?_, ?_⟩
        · intro r' hr'; cases hr'; exact h6
        · intro r' k' hr' hk'; cases hr'; rw [hk] at hk'; cases hk'; omega
  obtain ⟨rfl, h6, h7⟩ := key
  refine ⟨rfl, rfl, rfl, rfl, rfl, h6, h4, ?_⟩
  unfold createAccounts validateAccounts at h4
  simp only [bind_eq_ok, require_eq_ok] at h4
  obtain ⟨_, h8, h9⟩ := h4
  obtain ⟨h10, h11, h12⟩ := createLoop_inv h9 h8 (by simp) (by simp) rfl (by norm_num [B128])
  refine ⟨h10, h11, h12, h1, h2, by simp only; omega, ?_⟩
  intro md k hmd hk
  simp only [Option.map_eq_some_iff] at hmd
  obtain ⟨r, hr, rfl⟩ := hmd
  exact h7 r k hr hk

end Token

/-- All tokens satisfy their invariant. -/
def TokensOk (w : World) : Prop := ∀ a adm s, w.contracts a = some ⟨adm, .token s⟩ → Token.Inv s

theorem callInstantiate_token {c : Chain} {adv : Adv} {n : Nat} {me sender : Addr} {k : Kind} {m : InstMsg}
    {s : TokenState} {fs : List Frame} (h : callInstantiate c adv n me sender k m = .ok (.token s, fs)) :
    ∃ t, m = .token t ∧ m.inRange = true ∧ k = .token ∧ Token.instantiate c.api t = .ok s ∧ fs = [] := by
  unfold callInstantiate at h
  simp only [bind_eq_ok, require_eq_ok] at h
  obtain ⟨_, hr, h⟩ := h
  split at h <;> try simp only [bind_eq_ok, pure_eq_ok, Prod.mk.injEq, Prod.exists] at h
  · obtain ⟨_, h1, h2, rfl⟩ := h
    cases h2
    exact ⟨_, rfl, hr, rfl, h1, rfl⟩
  · obtain ⟨_, _, _, h2, _⟩ := h; cases h2
  · obtain ⟨_, _, _, h2, _⟩ := h; cases h2
  · obtain ⟨_, _, _, h2, _⟩ := h; cases h2
  · obtain ⟨_, _, h2, _⟩ := h; cases h2
  · cases h

theorem TokensOk.step {c : Chain} {adv : Adv} {n : Nat} {w w' : World} {f : Frame} {fs : List Frame}
    (hw : TokensOk w) (h : StepI c adv n w f w' fs) : TokensOk w' := by
  intro a adm s ha
  cases storeStep h with
  | same h => rw [h] at ha; exact hw a adm s ha
  | token me admin s1 s2 sender m r hc hr hx hc' ho =>
    by_cases h1 : a = me
    · subst h1; rw [hc'] at ha; cases ha
      exact (hw _ _ _ hc).eff (Token.execute_inv hx)
    · rw [ho a h1] at ha; exact hw a adm s ha
  | pair me admin s1 s2 hc hc' ho =>
    by_cases h1 : a = me
    · subst h1; rw [hc'] at ha; cases ha
    · rw [ho a h1] at ha; exact hw a adm s ha
  | factory me admin s1 s2 hc hc' ho =>
    by_cases h1 : a = me
    · subst h1; rw [hc'] at ha; cases ha
    · rw [ho a h1] at ha; exact hw a adm s ha
  | router me admin s1 s2 hc hc' ho =>
    by_cases h1 : a = me
    · subst h1; rw [hc'] at ha; cases ha
    · rw [ho a h1] at ha; exact hw a adm s ha
  | inst me adv n adm2 k m sender s2 fs _ hnew hx hc' ho _ =>
    by_cases h1 : a = me
    · subst h1; rw [hc'] at ha; cases ha
      obtain ⟨t, _, _, _, ht, _⟩ := callInstantiate_token hx
      exact (Token.instantiate_inv ht).2.2.2.2.2.2.2
    · rw [ho a h1] at ha; exact hw a adm s ha
  | migrate me admin k s2 hc hc' ho =>
    by_cases h1 : a = me
    · subst h1; rw [hc'] at ha
      simp only [Option.some.injEq, Contract.mk.injEq] at ha
      have := ha.2
      cases k <;> cases s2 <;> simp [migrateState] at this
    · rw [ho a h1] at ha; exact hw a adm s ha
  | admin me _ _ _ _ _ hc hc' ho =>
    by_cases h1 : a = me
    · subst h1; rw [hc'] at ha; cases ha; exact hw _ _ _ hc
    · rw [ho a h1] at ha; exact hw a adm s ha

theorem Reachable.tokensOk {c : Chain} {w : World} (h : Reachable c w) : TokensOk w :=
  reachable_induct (P := TokensOk) (fun w hg a adm s ha => by rw [hg.2 a] at ha; cases ha)
    (fun _ _ _ _ _ _ hp hs => hp.step hs) (fun _ _ hp => hp) (fun _ _ _ hp => hp) h

end Halo
