import Verif.Listing
import Verif.Spec.Listing
import Verif.Lemmas.TokenInv
import Verif.Lemmas.RegistryL
import Verif.Props.Witness
/-! # C81: the holders and the allowances of a token can be listed -/

namespace Halo
open _root_.Halo.Spec

namespace Token

theorem ordered_sorted {V : Type} (m : AMap Str V) : SortedKeys (ordered m) := by
  induction m with
  | nil => exact List.Pairwise.nil
  | cons e t ih => exact SortedKeys.smapSet ih

theorem ordered_get {V : Type} (m : AMap Str V) (k : Str) : AMap.get (ordered m) k = AMap.get m k := by
  induction m with
  | nil => rfl
  | cons e t ih =>
    obtain ⟨k', v⟩ := e
    change AMap.get (smapSet k' v (ordered t)) k = _
    rw [get_smapSet (ordered_sorted t), ih]
    simp only [AMap.get]
    by_cases h : k = k'
    · simp [h]
    · simp [h, Ne.symm h]

theorem mem_ordered {V : Type} {m : AMap Str V} {k : Str} {v : V} : (k, v) ∈ ordered m ↔ AMap.get m k = some v := by
  rw [← ordered_get]
  exact ⟨fun h => (ordered_sorted m).get_of_mem h, get_mem⟩

/-- What is left of a sorted listing after a key it contains. -/
theorem filter_after {V : Type} {l r : List (Str × V)} {e : Str × V} (hs : SortedKeys (l ++ e :: r)) :
    (l ++ e :: r).filter (fun x => bLt e.1 x.1) = r := by
  have h1 := List.pairwise_append.mp hs
  have h2 := List.pairwise_cons.mp h1.2.1
  rw [List.filter_append, List.filter_cons, if_neg (by simp [bLt_irrefl])]
  have e1 : l.filter (fun x => bLt e.1 x.1) = [] := by
    rw [List.filter_eq_nil_iff]
    intro x hx
    simp [bLt_asymm (h1.2.2 x hx e (by simp))]
  rw [e1, List.nil_append, List.filter_eq_self]
  exact h2.1

/-- Following the pages of a sorted listing gives the listing, for every page size. -/
theorem follow_all {V : Type} {l : List (Str × V)} (hs : SortedKeys l) {limit : Option Nat} (hl : limit ≠ some 0) (r : List (Str × V)) :
    Follow (fun st => some (pageOf l st limit)) Prod.fst none r ↔ r = l := by
  have hL : min (limit.getD 10) 30 ≠ 0 := by
    cases limit with
    | none => simp
    | some n =>
      have : n ≠ 0 := by simpa using hl
      simp only [Option.getD_some]
      omega
  have main : ∀ (N : Nat) (start : Option Str) (pre m : List (Str × V)), m.length ≤ N → l = pre ++ m →
      (start = none ∧ pre = [] ∨ ∃ l0 e, pre = l0 ++ [e] ∧ start = some e.1) →
      ∀ r, Follow (fun st => some (pageOf l st limit)) Prod.fst start r ↔ r = m := by
    intro N
    induction N with
    | zero =>
      intro start pre m hN hl hst r
      have hm : m = [] := List.length_eq_zero_iff.mp (by omega)
      subst hm
      have hp : pageOf l start limit = [] := by
        rcases hst with ⟨rfl, rfl⟩ | ⟨l0, e, rfl, rfl⟩
        · simp [pageOf, hl]
        · have h0 := filter_after (l := l0) (e := e) (r := []) (by rw [hl] at hs; simpa using hs)
          have h1 : l = l0 ++ [e] := by rw [hl]; simp
          simp only [pageOf]
          rw [h1, h0, List.take_nil]
      constructor
      · intro h
        cases h with
        | done => rfl
        | more _ page x rest h hx => rw [hp] at h; cases h; cases hx
      · rintro rfl
        exact .done _ (by rw [hp])
    | succ N ih =>
      intro start pre m hN hl hst r
      have hp : pageOf l start limit = m.take (min (limit.getD 10) 30) := by
        rcases hst with ⟨rfl, rfl⟩ | ⟨l0, e, rfl, rfl⟩
        · simp [pageOf, hl]
        · have h1 : l = l0 ++ e :: m := by rw [hl]; simp
          have h0 := filter_after (l := l0) (e := e) (r := m) (by rw [← h1]; exact hs)
          simp only [pageOf]
          rw [h1, h0]
      generalize hLe : min (limit.getD 10) 30 = L at hL hp
      cases hm : m with
      | nil =>
        rw [hm, List.take_nil] at hp
        constructor
        · intro h
          cases h with
          | done => rfl
          | more _ page x rest h hx => rw [hp] at h; cases h; cases hx
        · rintro rfl
          exact .done _ (by rw [hp])
      | cons e0 m0 =>
        have hne : m.take L ≠ [] := by
          rw [hm]
          cases L with
          | zero => exact absurd rfl hL
          | succ L => simp
        obtain ⟨p0, x, hx⟩ : ∃ p0 x, m.take L = p0 ++ [x] :=
          ⟨_, _, (List.dropLast_append_getLast hne).symm⟩
        have hlast : (m.take L).getLast? = some x := by rw [hx]; simp
        have hlen : (m.drop L).length ≤ N := by
          rw [List.length_drop, hm, List.length_cons]
          rw [hm, List.length_cons] at hN
          omega
        have key := ih (some x.1) (pre ++ m.take L) (m.drop L) hlen (by rw [List.append_assoc, List.take_append_drop]; exact hl)
          (.inr ⟨pre ++ p0, x, by rw [hx, List.append_assoc], rfl⟩)
        rw [← hm]
        constructor
        · intro h
          cases h with
          | done _ h => rw [hp] at h; exact absurd (Option.some.inj h) hne
          | more _ page y rest h hy hr =>
            rw [hp] at h
            cases h
            rw [hlast] at hy
            cases hy
            rw [(key rest).mp hr, List.take_append_drop]
        · rintro rfl
          have : r = r.take L ++ r.drop L := (List.take_append_drop L r).symm
          rw [this]
          exact .more _ _ x _ (by rw [hp]) hlast ((key _).mpr rfl)
  exact main l.length none [] l (Nat.le_refl _) rfl (.inl ⟨rfl, rfl⟩) r

theorem get_grantsBy (s : TokenState) (o p : Addr) : AMap.get (grantsBy s o) p = s.allowances.get (o, p) := by
  unfold grantsBy
  induction s.allowances with
  | nil => rfl
  | cons e t ih =>
    obtain ⟨⟨o', p'⟩, al⟩ := e
    simp only [List.filterMap_cons, AMap.get, Prod.mk.injEq]
    by_cases ho : o' = o
    · simp only [ho, if_true, AMap.get, true_and, ih]
    · simp only [ho, if_false, false_and, ih]

theorem get_grantsTo (s : TokenState) (o p : Addr) : AMap.get (grantsTo s p) o = s.allowances.get (o, p) := by
  unfold grantsTo
  induction s.allowances with
  | nil => rfl
  | cons e t ih =>
    obtain ⟨⟨o', p'⟩, al⟩ := e
    simp only [List.filterMap_cons, AMap.get, Prod.mk.injEq]
    by_cases ho : p' = p
    · simp only [ho, if_true, AMap.get, and_true, ih]
    · simp only [ho, if_false, and_false, ih]

/-- Holders are stored under valid addresses only. -/
def KeysOk (api : Api) (s : TokenState) : Prop := ∀ a ∈ s.balances.map Prod.fst, api.validate a = .ok a

theorem keys_of_set {K V : Type} [DecidableEq K] {m : AMap K V} {k : K} {v : V} {P : K → Prop} (h : ∀ a ∈ m.map Prod.fst, P a)
    (hk : P k) : ∀ a ∈ (m.set k v).map Prod.fst, P a := by
  intro a ha
  rw [AMap.keys_set] at ha
  split at ha
  · exact h a ha
  · rcases List.mem_append.mp ha with ha | ha
    · exact h a ha
    · simp only [List.mem_singleton] at ha; subst ha; exact hk

theorem key_of_pos {m : AMap Addr Nat} {a : Addr} {x : Nat} (hx : x ≠ 0) (h : x ≤ m.getD0 a) : a ∈ m.map Prod.fst := by
  by_contra hn
  have : m.getD0 a = 0 := by simp [AMap.getD0, AMap.get_not_mem hn]
  omega

theorem KeysOk.eff {api : Api} {blk : Block} {s s' : TokenState} {sender : Addr} {m : ExecMsg} {r : Response}
    (hi : KeysOk api s) (h : Eff api blk s sender m s' r) : KeysOk api s' := by
  cases h with
  | transfer dst x hx hv hb _ => exact keys_of_set (keys_of_set hi (hi _ (key_of_pos hx hb))) hv
  | send dst x _ hx hv hb _ => exact keys_of_set (keys_of_set hi (hi _ (key_of_pos hx hb))) hv
  | transferFrom o dst x _ hv ho => exact keys_of_set (keys_of_set hi ho) hv
  | sendFrom o dst x _ _ hv ho => exact keys_of_set (keys_of_set hi ho) hv
  | burn x hx hb hs => exact keys_of_set hi (hi _ (key_of_pos hx hb))
  | burnFrom o x _ ho => exact keys_of_set hi ho
  | mint dst x md _ hv => exact keys_of_set hi hv
  | increase => exact hi
  | decrease => exact hi
  | decreaseZero => exact hi
  | renounce => exact hi
  | newMinter => exact hi

theorem createLoop_keys {api : Api} {l : List (Str × Nat)} : ∀ {b b' : AMap Addr Nat} {n n' : Nat},
    createLoop api l b n = .ok (b', n') → (∀ a ∈ b.map Prod.fst, api.validate a = .ok a) →
    ∀ a ∈ b'.map Prod.fst, api.validate a = .ok a := by
  induction l with
  | nil => intro b b' n n' h hb; cases h; exact hb
  | cons hd t ih =>
    obtain ⟨a, x⟩ := hd
    intro b b' n n' h hb
    simp only [createLoop, bind_eq_ok, Uint128.add_eq_ok] at h
    obtain ⟨a', h1, _, _, h3⟩ := h
    obtain ⟨rfl, h1⟩ := validate_self h1
    exact ih h3 (keys_of_set hb h1)

theorem KeysOk.inst {api : Api} {m : TokenInst} {s : TokenState} (h : instantiate api m = .ok s) : KeysOk api s := by
  have h := (instantiate_inv h).2.2.2.2.2.2.1
  unfold createAccounts at h
  simp only [bind_eq_ok] at h
  obtain ⟨_, _, h⟩ := h
  exact createLoop_keys h nofun

end Token

/-- What holds of new tokens and is kept by every token message holds of all tokens. -/
theorem Reachable.token_induct {c : Chain} {P : TokenState → Prop} (hi : ∀ m s, Token.instantiate c.api m = .ok s → P s)
    (he : ∀ blk s s' sender m r, P s → Token.Eff c.api blk s sender m s' r → P s') {w : World} (h : Reachable c w) :
    ∀ a adm s, w.contracts a = some ⟨adm, .token s⟩ → P s := by
  refine reachable_induct (P := fun w => ∀ a adm s, w.contracts a = some ⟨adm, .token s⟩ → P s)
    (fun w hg a adm s ha => by rw [hg.2 a] at ha; cases ha) (fun _ _ _ _ _ _ hw h => ?_) (fun _ _ hp => hp) (fun _ _ _ hp => hp) h
  intro a adm s ha
  cases storeStep h with
  | same h => rw [h] at ha; exact hw a adm s ha
  | token me admin s1 s2 sender m r hc hr hx hc' ho =>
    by_cases h1 : a = me
    · subst h1; rw [hc'] at ha; cases ha
      exact he _ _ _ _ _ _ (hw _ _ _ hc) (Token.execute_inv hx)
    · rw [ho a h1] at ha; exact hw a adm s ha
  | pair me admin s1 s2 hc hc' ho =>
    by_cases h1 : a = me
    · subst h1; rw [hc'] at ha; cases ha
    · rw [ho a h1] at ha; exact hw a adm s ha
  | factory me admin s1 s2 hc hc' ho =>
    by_cases h1 : a = me
    · subst h1; rw [hc'] at ha; cases ha
    · rw [ho a h1] at ha; exact hw a adm s ha
  | router me admin s1 s2 hc hc' ho =>
    by_cases h1 : a = me
    · subst h1; rw [hc'] at ha; cases ha
    · rw [ho a h1] at ha; exact hw a adm s ha
  | inst me adv n adm2 k m sender s2 fs _ hnew hx hc' ho _ =>
    by_cases h1 : a = me
    · subst h1; rw [hc'] at ha; cases ha
      obtain ⟨t, _, _, _, ht, _⟩ := callInstantiate_token hx
      exact hi _ _ ht
    · rw [ho a h1] at ha; exact hw a adm s ha
  | migrate me admin k s2 hc hc' ho =>
    by_cases h1 : a = me
    · subst h1; rw [hc'] at ha
      simp only [Option.some.injEq, Contract.mk.injEq] at ha
      have := ha.2
      cases k <;> cases s2 <;> simp [migrateState] at this
    · rw [ho a h1] at ha; exact hw a adm s ha
  | admin me _ _ _ _ _ hc hc' ho =>
    by_cases h1 : a = me
    · subst h1; rw [hc'] at ha; cases ha; exact hw _ _ _ hc
    · rw [ho a h1] at ha; exact hw a adm s ha

theorem follow_map {α β κ : Type} {fetch : Option κ → Option (List α)} {key : α → κ} (g : α → β) {key' : β → κ}
    (hk : ∀ x, key' (g x) = key x) {start : Option κ} {r : List β} :
    Follow (fun st => (fetch st).map (List.map g)) key' start r ↔ ∃ r', Follow fetch key start r' ∧ r = r'.map g := by
  constructor
  · intro h
    induction h with
    | done start h =>
      simp only [Option.map_eq_some_iff, List.map_eq_nil_iff] at h
      obtain ⟨l, h, rfl⟩ := h
      exact ⟨[], .done _ h, rfl⟩
    | more start page x rest h hx hr ih =>
      simp only [Option.map_eq_some_iff] at h
      obtain ⟨l, h, rfl⟩ := h
      rw [List.getLast?_map, Option.map_eq_some_iff] at hx
      obtain ⟨y, hy, rfl⟩ := hx
      rw [hk] at ih
      obtain ⟨r', h1, rfl⟩ := ih
      exact ⟨l ++ r', .more _ _ y _ h hy h1, by simp⟩
  · rintro ⟨r', h, rfl⟩
    induction h with
    | done start h => exact .done _ (by simp [h])
    | more start page x rest h hx hr ih =>
      rw [List.map_append]
      refine .more _ _ (g x) _ (by simp [h]) (by simp [List.getLast?_map, hx]) ?_
      rw [hk]
      exact ih

/-- C81, holders: asking any token for its accounts page by page, with any page size, a client gets one list and no other; it names
every account at most once, in ascending order, everyone who holds something is on it, the token answers the balance query of everyone
on it, and the answers add up to the total supply. -/
theorem C81_holders {c : Chain} {w : World} (hw : Reachable c w) {t : Addr} {adm : Option Addr} {s : TokenState}
    (ht : w.contracts t = some ⟨adm, .token s⟩) {limit : Option Nat} (hl : limit ≠ some 0) :
    ∃ l : List Addr, (∀ r, Follow (fun st => some (Token.queryAllAccounts s st limit)) id none r ↔ r = l) ∧
      l.Pairwise (fun a b => bLt a b = true) ∧ l.Nodup ∧
      (∀ a, s.balances.getD0 a ≠ 0 → a ∈ l) ∧
      (∀ a ∈ l, Token.queryBalance c.api s a = .ok (s.balances.getD0 a)) ∧
      (l.map s.balances.getD0).sum = (Token.queryTokenInfo s).totalSupply := by
  have hinv := hw.tokensOk t adm s ht
  have hkeys := Reachable.token_induct (P := Token.KeysOk c.api) (fun _ _ h => Token.KeysOk.inst h) (fun _ _ _ _ _ _ h he => h.eff he)
    hw t adm s ht
  have hs := Token.ordered_sorted s.balances
  have hmem : ∀ a, a ∈ (Token.ordered s.balances).map Prod.fst ↔ a ∈ s.balances.map Prod.fst := by
    intro a
    rw [List.mem_map]
    constructor
    · rintro ⟨⟨k, v⟩, h, rfl⟩
      have := get_mem (Token.mem_ordered.mp h)
      exact List.mem_map.mpr ⟨_, this, rfl⟩
    · intro h
      cases hg : AMap.get s.balances a with
      | some v => exact ⟨(a, v), Token.mem_ordered.mpr hg, rfl⟩
      | none =>
        exfalso
        obtain ⟨e, he, rfl⟩ := List.mem_map.mp h
        generalize s.balances = m at hg he
        clear * - hg he
        induction m with
        | nil => cases he
        | cons e' t ih =>
          simp only [AMap.get] at hg
          split at hg
          · cases hg
          · rename_i hne
            rcases List.mem_cons.mp he with rfl | he
            · exact hne rfl
            · exact ih hg he
  have hpw : ((Token.ordered s.balances).map Prod.fst).Pairwise (fun a b => bLt a b = true) :=
    List.pairwise_map.mpr hs
  have hnd : ((Token.ordered s.balances).map Prod.fst).Nodup :=
    hpw.imp (fun h e => by subst e; rw [bLt_irrefl] at h; cases h)
  refine ⟨(Token.ordered s.balances).map Prod.fst, fun r => ?_, hpw, hnd, fun a ha => (hmem a).mpr ?_, fun a ha => ?_, ?_⟩
  · rw [show (fun st => some (Token.queryAllAccounts s st limit)) =
      fun st => (some (Token.pageOf (Token.ordered s.balances) st limit)).map (List.map Prod.fst) from rfl,
      follow_map (key := Prod.fst) Prod.fst (fun _ => rfl)]
    simp only [Token.follow_all hs hl]
    constructor
    · rintro ⟨_, rfl, rfl⟩; rfl
    · rintro rfl; exact ⟨_, rfl, rfl⟩
  · exact Token.key_of_pos ha (Nat.le_refl _)
  · simp [Token.queryBalance, hkeys a ((hmem a).mp ha), bind, Except.bind, pure, Except.pure]
  · change _ = s.totalSupply
    rw [← hinv.total, ← AMap.sum_keys _ hinv.nodup, ← List.sum_toFinset _ hnd]
    refine Finset.sum_congr ?_ fun _ _ => rfl
    ext a
    simp only [List.mem_toFinset]
    exact hmem a

/-- C81, allowances by owner: asking page by page for the allowances an address granted gives one list and no other: the spenders in
ascending order, each once, with exactly the allowance on record. -/
theorem C81_granted (api : Api) (s : TokenState) {owner : Str} (ho : api.validate owner = .ok owner) {limit : Option Nat}
    (hl : limit ≠ some 0) :
    ∃ l : List (Addr × Allowance),
      (∀ r, Follow (fun st => (Token.queryOwnerAllowances api s owner st limit).toOption) Prod.fst none r ↔ r = l) ∧
      l.Pairwise (fun x y => bLt x.1 y.1 = true) ∧
      (∀ spender al, (spender, al) ∈ l ↔ s.allowances.get (owner, spender) = some al) ∧
      ∀ spender, (∀ al, (spender, al) ∉ l) → Token.queryAllowance s owner spender = ⟨0, .never⟩ := by
  have hs := Token.ordered_sorted (Token.grantsBy s owner)
  have hm : ∀ spender al, (spender, al) ∈ Token.ordered (Token.grantsBy s owner) ↔ s.allowances.get (owner, spender) = some al :=
    fun p al => by rw [Token.mem_ordered, Token.get_grantsBy]
  refine ⟨_, fun r => ?_, hs, hm, fun p h => ?_⟩
  · have : (fun st => (Token.queryOwnerAllowances api s owner st limit).toOption) =
        fun st => some (Token.pageOf (Token.ordered (Token.grantsBy s owner)) st limit) := by
      funext st
      simp [Token.queryOwnerAllowances, ho, bind, Except.bind, pure, Except.pure, Except.toOption]
    rw [this, Token.follow_all hs hl]
  · unfold Token.queryAllowance
    cases hg : s.allowances.get (owner, p) with
    | none => rfl
    | some al => exact absurd ((hm p al).mpr hg) (h al)

/-- C81, allowances by spender: the same for what others granted an address; both listings agree. -/
theorem C81_received (api : Api) (s : TokenState) {spender : Str} (ho : api.validate spender = .ok spender) {limit : Option Nat}
    (hl : limit ≠ some 0) :
    ∃ l : List (Addr × Allowance),
      (∀ r, Follow (fun st => (Token.querySpenderAllowances api s spender st limit).toOption) Prod.fst none r ↔ r = l) ∧
      l.Pairwise (fun x y => bLt x.1 y.1 = true) ∧
      (∀ owner al, (owner, al) ∈ l ↔ s.allowances.get (owner, spender) = some al) := by
  have hs := Token.ordered_sorted (Token.grantsTo s spender)
  have hm : ∀ owner al, (owner, al) ∈ Token.ordered (Token.grantsTo s spender) ↔ s.allowances.get (owner, spender) = some al :=
    fun p al => by rw [Token.mem_ordered, Token.get_grantsTo]
  refine ⟨_, fun r => ?_, hs, hm⟩
  have : (fun st => (Token.querySpenderAllowances api s spender st limit).toOption) =
      fun st => some (Token.pageOf (Token.ordered (Token.grantsTo s spender)) st limit) := by
    funext st
    simp [Token.querySpenderAllowances, ho, bind, Except.bind, pure, Except.pure, Except.toOption]
  rw [this, Token.follow_all hs hl]

/-- C81, malformed addresses: both listings of allowances are answered for the addresses the chain accepts, in their one spelling, and
for no other text. -/
theorem C81_malformed (api : Api) (s : TokenState) (who : Str) (start : Option Str) (limit : Option Nat) :
    ((∃ l, Token.queryOwnerAllowances api s who start limit = .ok l) ↔ api.validate who = .ok who) ∧
    ((∃ l, Token.querySpenderAllowances api s who start limit = .ok l) ↔ api.validate who = .ok who) := by
  simp only [Token.queryOwnerAllowances, Token.querySpenderAllowances, bind_eq_ok, pure_eq_ok]
  refine ⟨⟨?_, fun h => ⟨_, _, h, rfl⟩⟩, ⟨?_, fun h => ⟨_, _, h, rfl⟩⟩⟩
  · rintro ⟨_, _, h, _⟩; exact (Token.validate_self h).2
  · rintro ⟨_, _, h, _⟩; exact (Token.validate_self h).2

/-- C81, page size: no answer has more than 30 entries, nor more than asked for; without a limit it has at most 10. -/
theorem C81_page_size (s : TokenState) (start : Option Str) :
    (Token.queryAllAccounts s start none).length ≤ 10 ∧
    ∀ n, (Token.queryAllAccounts s start (some n)).length ≤ n ∧ (Token.queryAllAccounts s start (some n)).length ≤ 30 := by
  have key : ∀ limit : Option Nat, (Token.queryAllAccounts s start limit).length ≤ min (limit.getD 10) 30 := by
    intro limit
    simp only [Token.queryAllAccounts, Token.pageOf, List.length_map]
    exact List.length_take_le _ _
  refine ⟨by simpa using key none, fun n => ?_⟩
  have := key (some n)
  simp only [Option.getD_some] at this
  omega

/-! ## Examples -/

namespace Demo

/-- Three holders and two allowances of one token of the demo. -/
def holders : List CosmosMsg := [.exec tA (.transfer user2 5) [], .exec tA (.increaseAllowance user2 7 none) []]
def listedWorld : World := worldOf (runs holders deployed)
theorem listedWorld_run : runs holders deployed = .ok listedWorld := worldOf_eq (by decide +kernel)
theorem listedWorld_reachable : Reachable chain listedWorld := deployed_reachable.later (later_runs listedWorld_run)

example : ∃ adm s, listedWorld.contracts tA = some ⟨adm, .token s⟩ ∧
    (Token.queryAllAccounts s none none = [pAB, user, user2] ∧ Token.queryAllAccounts s none (some 2) = [pAB, user] ∧
      Token.queryAllAccounts s (some user) (some 2) = [user2] ∧ Token.queryAllAccounts s (some user2) (some 2) = [] ∧
      (Token.queryOwnerAllowances chain.api s user none (some 1)).toOption = some [(pAB, ⟨10000, .never⟩)] ∧
      (Token.queryOwnerAllowances chain.api s user (some pAB) (some 1)).toOption = some [(user2, ⟨7, .never⟩)] ∧
      (Token.querySpenderAllowances chain.api s user2 none none).toOption = some [(user, ⟨7, .never⟩)]) := by
  obtain ⟨adm, s, h, hp⟩ := exists_token (w := listedWorld) (a := tA) (t := fun p =>
    decide (Token.queryAllAccounts p.2 none none = [pAB, user, user2] ∧ Token.queryAllAccounts p.2 none (some 2) = [pAB, user] ∧
      Token.queryAllAccounts p.2 (some user) (some 2) = [user2] ∧ Token.queryAllAccounts p.2 (some user2) (some 2) = [] ∧
      (Token.queryOwnerAllowances chain.api p.2 user none (some 1)).toOption = some [(pAB, ⟨10000, .never⟩)] ∧
      (Token.queryOwnerAllowances chain.api p.2 user (some pAB) (some 1)).toOption = some [(user2, ⟨7, .never⟩)] ∧
      (Token.querySpenderAllowances chain.api p.2 user2 none none).toOption = some [(user, ⟨7, .never⟩)])) (by decide +kernel)
  exact ⟨adm, s, h, of_decide_eq_true hp⟩

example : ∃ adm s, listedWorld.contracts tA = some ⟨adm, .token s⟩ ∧ ∃ l : List Addr,
    (∀ r, Follow (fun st => some (Token.queryAllAccounts s st (some 2))) id none r ↔ r = l) ∧ (l.map s.balances.getD0).sum = 50000 := by
  obtain ⟨adm, s, h, hp⟩ := exists_token (w := listedWorld) (a := tA) (t := fun p => decide (p.2.totalSupply = 50000))
    (by decide +kernel)
  obtain ⟨l, h1, _, _, _, _, h2⟩ := C81_holders listedWorld_reachable h (limit := some 2) (by simp)
  exact ⟨adm, s, h, l, h1, h2.trans (of_decide_eq_true hp)⟩

example (s : TokenState) := C81_granted chain.api s (owner := user) (validate_any _) (limit := none) (by simp)
example (s : TokenState) := C81_received chain.api s (spender := user2) (validate_any _) (limit := none) (by simp)

end Demo
end Halo
