import Verif.Props.Store
import Verif.Props.Create
import Verif.Props.Admin
import Verif.Props.Pool
import Verif.Lemmas.TraceL
/-! # C98: claims about the bytes on disk, over histories -/

namespace Halo
open _root_.Halo.Spec

variable {c : Chain}

/-- What the chain with storage as bytes can become, by any steps. -/
inductive DiskLater (c : Chain) : SWorld → SWorld → Prop where
  | refl (d : SWorld) : DiskLater c d d
  | step (d v w : SWorld) (h : DiskLater c d v) (hs : DiskStep c v w) : DiskLater c d w

namespace Spec

/-- The number that the digits of a text write. -/
def digitsIn (v : Bytes) : Nat := (v.filter fun b => decide (48 ≤ b) && decide (b ≤ 57)).foldl (fun n b => n * 10 + (b.toNat - 48)) 0

/-- The amounts in the entries of a store whose key starts with the prefix of cw20-base's map of balances. -/
def amounts (σ : Store) : List Nat := (σ.filter fun e => ([0, 7] ++ asc "balance").isPrefixOf e.1).map fun e => digitsIn e.2

end Spec

namespace DiskL

theorem raw_later {B : SWorld → World → Prop} (hB : Bisimulation c B) {d d' : SWorld} {w : World} (hw : RawReachable c w) (hb : B d w)
    (h : DiskLater c d d') : ∃ w' tr, RawReachable c w' ∧ B d' w' ∧ Hist c w tr w' := by
  induction h with
  | refl => exact ⟨w, [], hw, hb, .refl⟩
  | step v v' _ hs ih =>
    obtain ⟨u, tr, hu, hb, hh⟩ := ih
    cases hs with
    | tx adv gas _ _ signer m huser h =>
      rcases hB.tx v u hb adv gas signer m huser with ⟨x, y, hx, hy, hxy⟩ | ⟨e, hx, _⟩ | ⟨_, p, hx⟩
      · rw [h] at hx
        cases hx
        exact ⟨y, _, .step u y hu (.tx adv gas u y signer m huser hy), hxy,
          .tx tr adv.heard gas u y signer m.heard hh huser ((C84_tx (C84_reachable hu) adv gas signer m y).mp hy)⟩
      · rw [h] at hx; cases hx
      · rw [h] at hx; cases hx
    | block _ b => exact ⟨_, tr, .step u _ hu (.block u b), hB.block v u hb b, .block tr u b hh⟩
    | env _ b h =>
      have h' : ∀ x n, (u.bank x).getD0 (c.addrOf n) ≤ (b x).getD0 (c.addrOf n) := fun x n => by
        rw [← (hB.shows v u hb).bank]; exact h x n
      exact ⟨_, tr, .step u _ hu (.env u b h'), hB.env v u hb b, .env tr u b hh h'⟩

theorem digits_quoted (n : Nat) : digitsIn (quoted n) = n := by
  unfold digitsIn quoted
  rw [List.filter_append, List.filter_append]
  have h : (natToDec n).filter (fun b => decide (48 ≤ b) && decide (b ≤ 57)) = natToDec n :=
    List.filter_eq_self.mpr (List.all_eq_true.mp (natToDec_all n))
  rw [h, show List.filter (fun b => decide (48 ≤ b) && decide (b ≤ 57)) ([34] : Bytes) = [] from by decide, List.nil_append, List.append_nil]
  exact dval_natToDec n

theorem mem_get {K V : Type} [DecidableEq K] {m : AMap K V} (h : (m.map Prod.fst).Nodup) {k : K} {v : V} (hm : (k, v) ∈ m) :
    m.get k = some v := by
  induction m with
  | nil => cases hm
  | cons e t ih =>
    obtain ⟨k', v'⟩ := e
    rw [List.map_cons, List.nodup_cons] at h
    rcases List.mem_cons.mp hm with e | hm
    · cases e; simp [AMap.get]
    · have : k' ≠ k := by rintro rfl; exact h.1 (List.mem_map.mpr ⟨_, hm, rfl⟩)
      simp only [AMap.get, this, if_false]
      exact ih h.2 hm

theorem sorted_nodup {σ : Store} (h : σ.Pairwise (fun x y => x.1 < y.1)) : σ.Nodup :=
  h.imp fun {x y} hxy he => by rw [he] at hxy; exact absurd hxy (List.lt_irrefl _)

theorem lays_unique {σ τ : Store} {E : Bytes → Bytes → Prop} (h : Lays σ E) (h' : Lays τ E) : σ = τ := by
  have hp : σ.Perm τ := (List.perm_ext_iff_of_nodup (sorted_nodup h.1) (sorted_nodup h'.1)).mpr fun ⟨k, v⟩ => by rw [h.2, h'.2]
  refine hp.eq_of_pairwise (le := fun x y => x.1 < y.1) (fun a b _ _ hab hba => ?_) h.1 h'.1
  exact absurd (List.lt_trans hab hba) (List.lt_irrefl _)

theorem prefix_other {p k : Bytes} (a : Bytes) (h : p.isPrefixOf k = false) (hl : p.length ≤ k.length) : p.isPrefixOf (k ++ a) = false := by
  rw [Bool.eq_false_iff] at h ⊢
  intro hp
  apply h
  rw [List.isPrefixOf_iff_prefix] at hp ⊢
  exact List.prefix_of_prefix_length_le hp (List.prefix_append k a) hl

theorem amounts_perm {σ : Store} {s : TokenState} (h : Lays σ (TokenEntry s)) (hn : (s.balances.map Prod.fst).Nodup) :
    (amounts σ).Perm (s.balances.map Prod.snd) := by
  have hp : (σ.filter fun e => ([0, 7] ++ asc "balance").isPrefixOf e.1).Perm
      (s.balances.map fun e => ([0, 7] ++ asc "balance" ++ e.1, quoted e.2)) := by
    refine (List.perm_ext_iff_of_nodup ((sorted_nodup h.1).filter _) ?_).mpr ?_
    · refine List.Nodup.of_map Prod.fst ?_
      rw [List.map_map]
      have : (Prod.fst ∘ fun e : Addr × Nat => ([0, 7] ++ asc "balance" ++ e.1, quoted e.2)) =
          (fun a => [0, 7] ++ asc "balance" ++ a) ∘ Prod.fst := rfl
      rw [this, ← List.map_map]
      exact hn.map fun a b hab => List.append_cancel_left hab
    · rintro ⟨k, v⟩
      rw [List.mem_filter, h.2, List.mem_map]
      constructor
      · rintro ⟨he, hk⟩
        cases he with
        | version => exact absurd hk (by decide)
        | info => exact absurd (show ([0, 7] ++ asc "balance").isPrefixOf (asc "token_info") = true from hk) (by decide)
        | balance a n hg => exact ⟨(a, n), get_mem hg, rfl⟩
        | allowance o p x hg =>
          dsimp only at hk
          rw [prefix_other _ (by decide) (by decide)] at hk
          cases hk
        | spender o p x hg =>
          dsimp only at hk
          rw [prefix_other _ (by decide) (by decide)] at hk
          cases hk
      · rintro ⟨⟨a, n⟩, hm, e⟩
        cases e
        refine ⟨.balance a n (mem_get hn hm), ?_⟩
        rw [List.isPrefixOf_iff_prefix]
        exact List.prefix_append _ _
  have := hp.map fun e => digitsIn e.2
  rw [List.map_map] at this
  refine this.trans (.of_eq (List.map_congr_left fun e _ => ?_))
  exact digits_quoted e.2

end DiskL
open DiskL

/-- **C98**, histories: whatever happens on the chain with storage as bytes is what happens on the chain with typed storage: from a state
laid out on disk to a later one leads a typed history, with its trace, between states laid out the same. So every claim about two states of
a history, or about the calls in between, is a claim about the bytes on disk. -/
theorem C98_history {d d' : SWorld} (h : DiskReachable c d) (hl : DiskLater c d d') :
    ∃ w w' tr, Reachable c w ∧ OnDisk d w ∧ OnDisk d' w' ∧ Hist c w tr w' := by
  have hB := rep_bisimulation c
  obtain ⟨w, hw, hb⟩ := disk_raw hB h
  obtain ⟨w', tr, _, hb', hh⟩ := raw_later hB hw hb hl
  exact ⟨w, w', tr, C84_reachable hw, hB.shows d w hb, hB.shows d' w' hb', hh⟩

/-- The typed contract that a cell is. -/
theorem DiskL.cell {d : SWorld} {w : World} (h : OnDisk d w) {a : Addr} {x : Cell} (hx : d.cells a = some x) :
    ∃ ct, w.contracts a = some ct ∧ x.admin = ct.admin ∧ Stores x ct.state := by
  have hd := h.deployed a
  rw [hx] at hd
  obtain ⟨ct, hct⟩ := Option.isSome_iff_exists.mp hd.symm
  exact ⟨ct, hct, h.stored a x ct hx hct⟩

/-- **C98**, balances on disk: in every token, at any time, the amounts written under the keys of its balances add up to the total supply
written in its data, which fits 128 bits. -/
theorem C98_supply {d : SWorld} (h : DiskReachable c d) {a : Addr} {x : Cell} (hx : d.cells a = some x) (hk : x.kind = .token) :
    ∃ s : TokenState, (asc "token_info", tokenText s) ∈ x.store ∧ (amounts x.store).sum = s.totalSupply ∧ s.totalSupply < 2 ^ 128 := by
  obtain ⟨w, hw, ho⟩ := C88_reachable h
  obtain ⟨⟨adm, s⟩, hct, _, hs⟩ := DiskL.cell ho hx
  cases s with
  | token s =>
    have hi := hw.tokensOk _ _ _ hct
    exact ⟨s, (hs.2.2 _ _).mpr .info, (amounts_perm hs.2 hi.nodup).sum_eq.trans hi.total, hi.fits⟩
  | _ => simp [Stores, hk] at hs

/-- **C98**, pairs on disk: as long as a cell is a pair, not one byte of its storage changes. -/
theorem C98_pair {d d' : SWorld} (h : DiskReachable c d) (hl : DiskLater c d d') {a : Addr} {x x' : Cell} (hx : d.cells a = some x)
    (hx' : d'.cells a = some x') (hk : x.kind = .pair) (hk' : x'.kind = .pair) : x'.store = x.store := by
  obtain ⟨w, w', tr, hw, ho, ho', hh⟩ := C98_history h hl
  obtain ⟨⟨adm, s⟩, hct, _, hs⟩ := DiskL.cell ho hx
  obtain ⟨⟨adm', s'⟩, hct', _, hs'⟩ := DiskL.cell ho' hx'
  cases s with
  | pair s =>
    cases s' with
    | pair s' =>
      have := C27_pair_immutable hw hh.later hct hct'
      subst this
      exact lays_unique hs'.2 hs.2
    | _ => simp [Stores, hk'] at hs'
  | _ => simp [Stores, hk] at hs

/-- **C98**, the registry on disk: an entry of the factory's map of pairs stays, byte for byte, as long as the cell is a factory. -/
theorem C98_registry {d d' : SWorld} (h : DiskReachable c d) (hl : DiskLater c d d') {a : Addr} {x x' : Cell} (hx : d.cells a = some x)
    (hx' : d'.cells a = some x') (hk : x.kind = .factory) (hk' : x'.kind = .factory) (k v : Bytes)
    (he : ([0, 9] ++ asc "pair_info" ++ k, v) ∈ x.store) : ([0, 9] ++ asc "pair_info" ++ k, v) ∈ x'.store := by
  obtain ⟨w, w', tr, hw, ho, ho', hh⟩ := C98_history h hl
  obtain ⟨⟨adm, s⟩, hct, _, hs⟩ := DiskL.cell ho hx
  obtain ⟨⟨adm', s'⟩, hct', _, hs'⟩ := DiskL.cell ho' hx'
  cases s with
  | factory s =>
    cases s' with
    | factory s' =>
      have he := (hs.2.2 _ _).mp he
      generalize hkey : [0, 9] ++ asc "pair_info" ++ k = key at he
      rw [hs'.2.2]
      have no : ∀ q : Bytes, ([0, 9] ++ asc "pair_info").isPrefixOf q = false → q ≠ [0, 9] ++ asc "pair_info" ++ k := by
        rintro q hq rfl
        rw [Bool.eq_false_iff] at hq
        exact hq (List.isPrefixOf_iff_prefix.mpr (List.prefix_append _ _))
      cases he with
      | version => exact absurd hkey.symm (no _ (by decide))
      | config => exact absurd hkey.symm (no _ (by decide))
      | tmp => exact absurd hkey.symm (no _ (by decide))
      | pair k' p hp => exact .pair k' p (C38_entries_stay hw hh.later hct hct' hp)
      | allow n v hp => exact absurd hkey.symm (no _ (prefix_other _ (by decide) (by decide)))
    | _ => simp [Stores, hk'] at hs'
  | _ => simp [Stores, hk] at hs

/-! ### Concrete storage -/

namespace Demo

theorem diskRuns_later {l : List RawMsg} : ∀ {d d' : SWorld}, diskRuns chain l d = .ok d' → DiskLater chain d d' := by
  induction l using List.reverseRecOn with
  | nil => intro d d' h; cases h; exact .refl _
  | append_singleton l m ih =>
    intro d d' h
    have key : ∀ (l : List RawMsg) (d d' : SWorld), diskRuns chain (l ++ [m]) d = .ok d' →
        ∃ v, diskRuns chain l d = .ok v ∧ runTxS chain silent 20 v user m = .ok d' := by
      intro l
      induction l with
      | nil =>
        intro d d' h
        simp only [List.nil_append, diskRuns, bind_eq_ok, Except.ok.injEq] at h
        obtain ⟨_, h, rfl⟩ := h
        exact ⟨d, rfl, h⟩
      | cons a t ih =>
        intro d d' h
        simp only [List.cons_append, diskRuns, bind_eq_ok] at h ⊢
        obtain ⟨v, h1, h2⟩ := h
        obtain ⟨u, h3, h4⟩ := ih _ _ h2
        exact ⟨u, ⟨v, h1, h3⟩, h4⟩
    obtain ⟨v, h1, h2⟩ := key l d d' h
    exact .step _ _ _ (ih h1) (.tx silent 20 v d' user m isUser_user h2)

/-- The kind and the storage of a contract before and after some transactions of the demo. -/
def beforeAfter (l : List CosmosMsg) (a : Addr) : Option ((Kind × Store) × (Kind × Store)) :=
  (val (diskRuns chain (setup.map CosmosMsg.sent) blank)).bind fun d => (val (diskRuns chain (l.map CosmosMsg.sent) d)).bind fun d' =>
    (d.cells a).bind fun x => (d'.cells a).map fun x' => ((x.kind, x.store), (x'.kind, x'.store))

theorem beforeAfter_inv {l : List CosmosMsg} {a : Addr} {t : (Kind × Store) × (Kind × Store) → Bool}
    (h : (beforeAfter l a).any t = true) : ∃ d d' x x', DiskReachable chain d ∧ DiskLater chain d d' ∧ d.cells a = some x ∧
      d'.cells a = some x' ∧ t ((x.kind, x.store), (x'.kind, x'.store)) = true := by
  rw [Option.any_eq_true] at h
  obtain ⟨r, h, ht⟩ := h
  simp only [beforeAfter, Option.bind_eq_some_iff, Option.map_eq_some_iff] at h
  obtain ⟨d, hd, d', hd', x, hx, x', hx', rfl⟩ := h
  exact ⟨d, d', x, x', diskRuns_reachable isUser_user (.genesis blank rfl fun _ => rfl) (val_eq hd), diskRuns_later (val_eq hd'), hx, hx', ht⟩

/-- Amounts read off the storage of token A: 10000 and 40000, then, after a swap and a withdrawal, 10612 and 39388; the sum stays 50000. -/
example : ∃ d d' x x', DiskReachable chain d ∧ DiskLater chain d d' ∧ d.cells tA = some x ∧ d'.cells tA = some x' ∧
    ((x.kind = .token ∧ amounts x.store = [10000, 40000]) ∧ x'.kind = .token ∧ amounts x'.store = [10612, 39388]) := by
  obtain ⟨d, d', x, x', h1, h2, h3, h4, h5⟩ := beforeAfter_inv (l := trade) (a := tA)
    (t := fun r => decide ((r.1.1 = .token ∧ amounts r.1.2 = [10000, 40000]) ∧ r.2.1 = .token ∧ amounts r.2.2 = [10612, 39388])) (by decide +kernel)
  exact ⟨d, d', x, x', h1, h2, h3, h4, of_decide_eq_true h5⟩

/-- The supply written down is the sum. -/
example : ∃ d x, DiskReachable chain d ∧ d.cells tA = some x ∧ ∃ s : TokenState, (asc "token_info", tokenText s) ∈ x.store ∧ s.totalSupply = 50000 := by
  obtain ⟨d, d', x, x', h1, h2, h3, h4, h5⟩ := beforeAfter_inv (l := trade) (a := tA)
    (t := fun r => decide (r.1.1 = .token ∧ amounts r.1.2 = [10000, 40000])) (by decide +kernel)
  have h5 := of_decide_eq_true h5
  obtain ⟨s, hs, e, _⟩ := C98_supply h1 h3 h5.1
  rw [h5.2] at e
  exact ⟨d, x, h1, h3, s, hs, e.symm⟩

/-- The pair is still a pair after the swap and the withdrawal, and the factory, with two entries, a factory. -/
example : (∃ d d' x x', DiskReachable chain d ∧ DiskLater chain d d' ∧ d.cells pAB = some x ∧ d'.cells pAB = some x' ∧
      (x.kind = .pair ∧ x'.kind = .pair ∧ x.store ≠ []) ∧ x'.store = x.store) ∧
    ∃ d d' x x' v, DiskReachable chain d ∧ DiskLater chain d d' ∧ d.cells fac = some x ∧ d'.cells fac = some x' ∧
      ([0, 9] ++ asc "pair_info" ++ [1, 1, 1], v) ∈ x.store ∧ ([0, 9] ++ asc "pair_info" ++ [1, 1, 1], v) ∈ x'.store := by
  constructor
  · obtain ⟨d, d', x, x', h1, h2, h3, h4, h5⟩ := beforeAfter_inv (l := trade) (a := pAB)
      (t := fun r => decide (r.1.1 = .pair ∧ r.2.1 = .pair ∧ r.1.2 ≠ [])) (by decide +kernel)
    have h5 := of_decide_eq_true h5
    exact ⟨d, d', x, x', h1, h2, h3, h4, h5, C98_pair h1 h2 h3 h4 h5.1 h5.2.1⟩
  · obtain ⟨d, d', x, x', h1, h2, h3, h4, h5⟩ := beforeAfter_inv (l := trade) (a := fac)
      (t := fun r => decide (r.1.1 = .factory ∧ r.2.1 = .factory ∧ ∃ e ∈ r.1.2, e.1 = [0, 9] ++ asc "pair_info" ++ [1, 1, 1])) (by decide +kernel)
    obtain ⟨hk, hk', ⟨k, v⟩, hm, hv⟩ := of_decide_eq_true h5
    dsimp only at hv hm
    rw [hv] at hm
    exact ⟨d, d', x, x', v, h1, h2, h3, h4, hm, C98_registry h1 h2 h3 h4 hk hk' _ v hm⟩

end Demo
end Halo
