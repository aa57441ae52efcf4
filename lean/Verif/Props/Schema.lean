import Verif.Spec.Schema
import Verif.Lemmas.ShapeMsgL
import Verif.Props.ByteChain
import Verif.Props.Grammar
/-! # C108: the published schemas -/

namespace Halo
open _root_.Halo.Spec
open ShapeL

namespace SchemaL

/-- A field of a record that is there has the value's shape at each of its occurrences. -/
theorem has_all {α : Type} {names : List Str} {b : Json} {l : List (Str × Json)} (hr : Record names b l) {k : Str}
    {P : Json → α → Prop} {x : α} (h : Has l k P x) {v : Json} (hv : (k, v) ∈ l) : P v x := by
  obtain ⟨j, hj, hp⟩ := h
  have e := (lookup_iff hr.2.1).2 hj
  rw [(lookup_iff hr.2.1).2 hv] at e
  exact Option.some.inj e ▸ hp

theorem text_field {names : List Str} {b : Json} {l : List (Str × Json)} {k : Str} {a : Str} (hr : Record names b l)
    (h : Has l k IsText a) : Schema.object [k] [(k, Schema.string)] b := by
  obtain ⟨m, rfl, rfl⟩ := hr.1
  refine ⟨m, rfl, ?_, ?_⟩
  · intro k' hk'
    rw [List.mem_singleton] at hk'
    subst hk'
    obtain ⟨j, hj, _⟩ := h
    exact ⟨j, hj⟩
  · intro p hp v hv
    rw [List.mem_singleton] at hp
    subst hp
    exact ⟨a, has_all hr h hv⟩

theorem tag {k : Str} {b : Json} {S : Schema} (h : S b) : Schema.closed [k] [(k, S)] (single k b) := by
  refine ⟨⟨_, rfl, ?_, ?_⟩, ?_⟩
  · intro k' hk'
    rw [List.mem_singleton] at hk'
    subst hk'
    exact ⟨b, by simp [Members.toList]⟩
  · intro p hp v hv
    rw [List.mem_singleton] at hp
    subst hp
    simp only [Members.toList, List.mem_singleton, Prod.mk.injEq] at hv
    rw [hv.2]
    exact h
  · intro m hm p hp
    cases hm
    simp only [Members.toList, List.mem_singleton] at hp
    subst hp
    simp

theorem info {j : Json} {i : AssetInfo} (h : IsInfo j i) : Schema.assetInfo j := by
  cases h with
  | token hr ha => exact ⟨_, List.mem_cons_self, tag (text_field hr ha)⟩
  | native hr ha => exact ⟨_, List.mem_cons_of_mem _ List.mem_cons_self, tag (text_field hr ha)⟩

/-- A record with one field has one member. -/
theorem record_one {k : Str} {b : Json} {l : List (Str × Json)} (hr : Record [k] b l) {v : Json} (hv : (k, v) ∈ l) : b = single k v := by
  obtain ⟨⟨m, rfl, rfl⟩, hn, ho⟩ := hr
  cases m with
  | nil => cases hv
  | cons k1 v1 t =>
    cases t with
    | nil =>
      simp only [Members.toList, List.mem_singleton, Prod.mk.injEq] at hv
      rw [hv.1, hv.2]; rfl
    | cons k2 v2 t =>
      exfalso
      simp only [Members.toList, List.map_cons, List.nodup_cons, List.mem_cons, not_or] at hn
      have h1 := ho (k1, v1) (by simp [Members.toList])
      have h2 := ho (k2, v2) (by simp [Members.toList])
      rw [List.mem_singleton] at h1 h2
      exact hn.1.1 (h1.trans h2.symm)

theorem record_single (k : Str) (v : Json) : Record [k] (single k v) [(k, v)] :=
  ⟨⟨_, rfl, rfl⟩, by simp, by simp⟩

theorem info_iff {j : Json} : (∃ i, IsInfo j i) ↔ Schema.assetInfo j ∧ ∃ k k' v, j = single k (single k' v) := by
  constructor
  · rintro ⟨i, h⟩
    refine ⟨info h, ?_⟩
    cases h with
    | token hr ha => obtain ⟨v, hv, _⟩ := ha; exact ⟨_, _, v, by rw [record_one hr hv]⟩
    | native hr ha => obtain ⟨v, hv, _⟩ := ha; exact ⟨_, _, v, by rw [record_one hr hv]⟩
  · rintro ⟨⟨S, hS, h⟩, k, k', v, rfl⟩
    have key : ∀ {t f : Str}, Schema.closed [t] [(t, Schema.object [f] [(f, Schema.string)])] (single k (single k' v)) →
        k = t ∧ k' = f ∧ ∃ s, v = .str s := by
      rintro t f ⟨⟨m, hm, h1, h2⟩, _⟩
      cases hm
      obtain ⟨b, hb⟩ := h1 t List.mem_cons_self
      have hb' := h2 _ List.mem_cons_self b hb
      simp only [Members.toList, List.mem_singleton, Prod.mk.injEq] at hb
      obtain ⟨rfl, rfl⟩ := hb
      obtain ⟨m, hm, h1, h2⟩ := hb'
      cases hm
      obtain ⟨b, hb⟩ := h1 f List.mem_cons_self
      have hb' := h2 _ List.mem_cons_self b hb
      simp only [Members.toList, List.mem_singleton, Prod.mk.injEq] at hb
      obtain ⟨rfl, rfl⟩ := hb
      exact ⟨rfl, rfl, hb'⟩
    simp only [List.mem_cons, List.not_mem_nil, or_false] at hS
    rcases hS with rfl | rfl
    · obtain ⟨rfl, rfl, s, rfl⟩ := key h
      exact ⟨_, .token (a := s) (record_single _ _) ⟨_, List.mem_cons_self, rfl⟩⟩
    · obtain ⟨rfl, rfl, s, rfl⟩ := key h
      exact ⟨_, .native (d := s) (record_single _ _) ⟨_, List.mem_cons_self, rfl⟩⟩

theorem asset {j : Json} {a : Asset} (h : IsAsset j a) : Schema.asset j := by
  obtain ⟨l, hr, hi, ha⟩ := h
  obtain ⟨m, rfl, rfl⟩ := hr.1
  refine ⟨m, rfl, ?_, ?_⟩
  · intro k hk
    simp only [List.mem_cons, List.not_mem_nil, or_false] at hk
    rcases hk with rfl | rfl
    · obtain ⟨v, hv, _⟩ := ha; exact ⟨v, hv⟩
    · obtain ⟨v, hv, _⟩ := hi; exact ⟨v, hv⟩
  · intro p hp v hv
    simp only [List.mem_cons, List.not_mem_nil, or_false] at hp
    rcases hp with rfl | rfl
    · obtain ⟨s, hs, _⟩ := has_all hr ha hv; exact ⟨s, hs⟩
    · exact info (has_all hr hi hv)

theorem two {α : Type} {P : Json → α → Prop} {S : Schema} (h : ∀ j x, P j x → S j) {j : Json} {p : α × α} (hp : IsTwo P j p) :
    Schema.array S 2 2 j := by
  obtain ⟨js, rfl, hf⟩ := hp
  refine ⟨js, rfl, hf.length_eq.ge, hf.length_eq.le, ?_⟩
  intro v hv
  generalize js.toList = l at hf hv
  cases hf with
  | cons h1 hf =>
    cases hf with
    | cons h2 hf =>
      cases hf
      simp only [List.mem_cons, List.not_mem_nil, or_false] at hv
      rcases hv with rfl | rfl
      · exact h _ _ h1
      · exact h _ _ h2

theorem pairInfo {j : Json} {p : PairInfo} (h : IsPairInfo j p) : Schema.pairInfo j := by
  obtain ⟨l, hr, h1, h2, h3, _⟩ := h
  obtain ⟨m, rfl, rfl⟩ := hr.1
  refine ⟨m, rfl, ?_, ?_⟩
  · intro k hk
    simp only [List.mem_cons, List.not_mem_nil, or_false] at hk
    rcases hk with rfl | rfl | rfl
    · obtain ⟨v, hv, _⟩ := h1; exact ⟨v, hv⟩
    · obtain ⟨v, hv, _⟩ := h2; exact ⟨v, hv⟩
    · obtain ⟨v, hv, _⟩ := h3; exact ⟨v, hv⟩
  · intro p hp v hv
    simp only [List.mem_cons, List.not_mem_nil, or_false] at hp
    rcases hp with rfl | rfl | rfl
    · exact two (fun (_ : Json) (_ : AssetInfo) h => info h) (has_all hr h1 hv)
    · exact ⟨_, has_all hr h2 hv⟩
    · exact ⟨_, has_all hr h3 hv⟩

theorem asset_iff {j : Json} : (∃ a, IsAsset j a) ↔ Schema.asset j ∧ ∀ m, j = .obj m → m.toList.length = 2 ∧
    (∀ v, (asc "info", v) ∈ m.toList → ∃ k k' u, v = single k (single k' u)) ∧
    ∀ s, (asc "amount", Json.str s) ∈ m.toList → ∃ n, CountText s n := by
  constructor
  · rintro ⟨a, h⟩
    refine ⟨asset h, ?_⟩
    rintro m rfl
    obtain ⟨l, hr, hi, ha⟩ := h
    obtain ⟨⟨_, e, rfl⟩, hn, ho⟩ := hr
    cases e
    refine ⟨?_, ?_, ?_⟩
    · have h1 : m.toList.map Prod.fst ⊆ [asc "info", asc "amount"] := by
        intro k hk
        obtain ⟨p, hp, rfl⟩ := List.mem_map.1 hk
        exact ho p hp
      have h2 : [asc "info", asc "amount"] ⊆ m.toList.map Prod.fst := by
        intro k hk
        simp only [List.mem_cons, List.not_mem_nil, or_false] at hk
        rcases hk with rfl | rfl
        · obtain ⟨v, hv, _⟩ := hi; exact List.mem_map.2 ⟨_, hv, rfl⟩
        · obtain ⟨v, hv, _⟩ := ha; exact List.mem_map.2 ⟨_, hv, rfl⟩
      have h3 := (List.Nodup.subperm hn h1).length_le
      have h4 := (List.Nodup.subperm (by decide) h2).length_le
      simp only [List.length_map, List.length_cons, List.length_nil] at h3 h4
      omega
    · intro v hv
      exact (info_iff.1 ⟨_, has_all ⟨⟨m, rfl, rfl⟩, hn, ho⟩ hi hv⟩).2
    · intro s hs
      obtain ⟨s', e, h⟩ := has_all ⟨⟨m, rfl, rfl⟩, hn, ho⟩ ha hs
      cases e
      exact ⟨_, h⟩
  · rintro ⟨⟨m, rfl, h1, h2⟩, h⟩
    obtain ⟨hl, hi, ha⟩ := h m rfl
    obtain ⟨va, hva⟩ := h1 (asc "amount") (by simp)
    obtain ⟨vi, hvi⟩ := h1 (asc "info") (by simp)
    have h3 : [asc "info", asc "amount"] ⊆ m.toList.map Prod.fst := by
      intro k hk
      simp only [List.mem_cons, List.not_mem_nil, or_false] at hk
      rcases hk with rfl | rfl
      · exact List.mem_map.2 ⟨_, hvi, rfl⟩
      · exact List.mem_map.2 ⟨_, hva, rfl⟩
    have h4 := (List.Nodup.subperm (by decide) h3).perm_of_length_le (by simp [hl])
    have hr : Record [asc "info", asc "amount"] (.obj m) m.toList :=
      ⟨⟨m, rfl, rfl⟩, h4.nodup_iff.1 (by decide), fun p hp => h4.mem_iff.2 (List.mem_map.2 ⟨p, hp, rfl⟩)⟩
    obtain ⟨s, rfl⟩ := h2 (asc "amount", Schema.string) (by simp) _ hva
    obtain ⟨n, hn⟩ := ha s hva
    obtain ⟨i, hi⟩ := info_iff.2 ⟨h2 (asc "info", Schema.assetInfo) (by simp) _ hvi, hi _ hvi⟩
    exact ⟨⟨i, n⟩, _, hr, ⟨_, hvi, hi⟩, ⟨_, hva, _, rfl, hn⟩⟩

end SchemaL

/-- **C108.** Which values are read as an `AssetInfo`: those that conform to the published schema and in which both objects have a single
member. So whatever is read conforms; what the schema allows beyond that is further members of the inner object, and these are refused. -/
theorem C108_asset_info (j : Json) :
    (∃ i, asInfo j = some i) ↔ Schema.assetInfo j ∧ ∃ k k' v, j = single k (single k' v) := by
  simp only [reads_info j _, SchemaL.info_iff]

/-- **C108.** Which values are read as an `Asset`: those that conform to the published schema, have no further members, and whose amount
is the text of a number that fits. -/
theorem C108_asset (j : Json) :
    (∃ a, asAsset j = some a) ↔ Schema.asset j ∧ ∀ m, j = .obj m → m.toList.length = 2 ∧
      (∀ v, (asc "info", v) ∈ m.toList → ∃ k k' u, v = single k (single k' u)) ∧
      ∀ s, (asc "amount", Json.str s) ∈ m.toList → ∃ n, CountText s n := by
  simp only [reads_asset j _, SchemaL.asset_iff]

/-- **C108.** Whatever is read as a `PairInfo` conforms to the published schema; but a value with only the members the schema names is
not read: the schema lacks two fields the code requires. -/
theorem C108_pair_info (j : Json) :
    (∀ p, asPairInfo j = some p → Schema.pairInfo j) ∧
      (Only [asc "asset_infos", asc "contract_addr", asc "liquidity_token"] j → asPairInfo j = none) := by
  refine ⟨fun p h => SchemaL.pairInfo ((reads_pairInfo j p).1 h), fun ho => ?_⟩
  cases e : asPairInfo j with
  | none => rfl
  | some p =>
    obtain ⟨l, ⟨⟨m, rfl, rfl⟩, _⟩, _, _, _, ⟨v, hv, _⟩, _⟩ := (reads_pairInfo j p).1 e
    have h5 : asc "asset_decimals" ∈ [asc "asset_infos", asc "contract_addr", asc "liquidity_token"] := ho m rfl _ hv
    exact absurd h5 (by decide)

/-- A text of a value that conforms to a schema. -/
def TextOf (S : Schema) (b : Bytes) : Prop := ∃ j, JsonText b j ∧ S j

namespace SchemaL

theorem infoJ_ok (i : AssetInfo) : Schema.assetInfo (infoJ i) := by
  cases i with
  | token a => exact info (.token (a := a) (record_single _ _) ⟨_, List.mem_cons_self, rfl⟩)
  | native d => exact info (.native (d := d) (record_single _ _) ⟨_, List.mem_cons_self, rfl⟩)

theorem assetJ_ok (a : Asset) : Schema.asset (assetJ a) := by
  refine ⟨_, rfl, ?_, ?_⟩
  · intro k hk
    simp only [List.mem_cons, List.not_mem_nil, or_false] at hk
    rcases hk with rfl | rfl
    · exact ⟨u128J a.amount, by simp [Members.toList, Members.ofList]⟩
    · exact ⟨infoJ a.info, by simp [Members.toList, Members.ofList]⟩
  · intro p hp v hv
    simp only [Members.toList, Members.ofList, List.mem_cons, Prod.mk.injEq, List.not_mem_nil, or_false] at hp hv
    rcases hp with rfl | rfl
    · rcases hv with ⟨e, _⟩ | ⟨_, rfl⟩
      · exact absurd e (by decide)
      · exact ⟨_, rfl⟩
    · rcases hv with ⟨_, rfl⟩ | ⟨e, _⟩
      · exact infoJ_ok _
      · exact absurd e (by decide)

theorem twoJ_ok {α : Type} {f : α → Json} {S : Schema} (h : ∀ x, S (f x)) (p : α × α) : Schema.array S 2 2 (twoJ f p) := by
  refine ⟨_, rfl, le_rfl, le_rfl, ?_⟩
  intro v hv
  simp only [Items.toList, Items.ofList, List.mem_cons, List.not_mem_nil, or_false] at hv
  rcases hv with rfl | rfl <;> exact h _

theorem pairInfoJ_ok (i : PairInfo) : Schema.pairInfo (pairInfoJ i) := by
  refine ⟨_, rfl, ?_, ?_⟩
  · intro k hk
    simp only [List.mem_cons, List.not_mem_nil, or_false] at hk
    rcases hk with rfl | rfl | rfl
    · exact ⟨twoJ infoJ i.assetInfos, by simp [Members.toList, Members.ofList]⟩
    · exact ⟨.str i.contractAddr, by simp [Members.toList, Members.ofList]⟩
    · exact ⟨.str i.liquidityToken, by simp [Members.toList, Members.ofList]⟩
  · intro p hp v hv
    have hn : (((Members.ofList [(asc "asset_infos", twoJ infoJ i.assetInfos), (asc "contract_addr", .str i.contractAddr),
      (asc "liquidity_token", .str i.liquidityToken), (asc "asset_decimals", twoJ .num i.assetDecimals),
      (asc "requirements", requirementsJ i.requirements)]).toList).map Prod.fst).Nodup := by
      simp only [Members.toList, Members.ofList, List.map_cons, List.map_nil]
      decide
    have e := (lookup_iff hn).2 hv
    simp only [List.mem_cons, List.not_mem_nil, or_false] at hp
    rcases hp with rfl | rfl | rfl
    · cases e.symm.trans (rfl : _ = some (twoJ infoJ i.assetInfos))
      exact twoJ_ok infoJ_ok _
    · cases e.symm.trans (rfl : _ = some (Json.str i.contractAddr))
      exact ⟨_, rfl⟩
    · cases e.symm.trans (rfl : _ = some (Json.str i.liquidityToken))
      exact ⟨_, rfl⟩

theorem answered {k : Kind} {f : QueryMsg → R Json} {q b : Bytes} {m : QueryMsg} (hq : readQuery k q = some m)
    (h : answerBytes k f q = .ok b) : ∃ j, f m = .ok j ∧ JsonText b j := by
  unfold answerBytes at h
  rw [hq] at h
  simp only [bind_eq_ok, okOr_eq_ok, pure_eq_ok] at h
  obtain ⟨_, e, j, hj, rfl⟩ := h
  cases e
  exact ⟨j, hj, (C89_json _ _).1 (Json.parse_print j)⟩

end SchemaL

/-- **C108.** What a pair answers when asked who it is, and a factory when asked for a pair, in whatever words, is the text of a value
that conforms to the published schema of `PairInfo`; the entries of the factory's list conform to it too, and the assets in the pair's
report of its pool conform to the schema of `Asset`. -/
theorem C108_answers {c : Chain} {w : World} {a : Str} {t : Addr} {adm : Option Addr} (hr : c.api.resolve a = .ok t)
    (foreign : Str → Bytes → R Bytes) (n : Nat) {q b : Bytes} :
    (∀ s, w.contracts t = some ⟨adm, .pair s⟩ → smart c foreign w (n + 1) a q = .ok b →
      (readQuery .pair q = some .pair → TextOf Schema.pairInfo b) ∧
      (readQuery .pair q = some .pool → TextOf (Schema.object [asc "assets"] [(asc "assets", Schema.array Schema.asset 2 2)]) b)) ∧
    ∀ s, w.contracts t = some ⟨adm, .factory s⟩ → smart c foreign w n a q = .ok b →
      (∀ is, readQuery .factory q = some (.pairOf is) → TextOf Schema.pairInfo b) ∧
      (∀ st l, readQuery .factory q = some (.pairs st l) → ∃ js : Items, JsonText b (single (asc "pairs") (.arr js)) ∧
        ∀ v ∈ js.toList, Schema.pairInfo v) := by
  refine ⟨fun s hs h => ?_, fun s hs h => ?_⟩
  · rw [QueryCodec.smart_pair (ByteChain.look hr hs)] at h
    refine ⟨fun hq => ?_, fun hq => ?_⟩
    · obtain ⟨j, hj, ht⟩ := SchemaL.answered hq h
      simp only [Pair.answer, bind_eq_ok, pure_eq_ok] at hj
      obtain ⟨v, _, rfl⟩ := hj
      exact ⟨_, ht, SchemaL.pairInfoJ_ok v⟩
    · obtain ⟨j, hj, ht⟩ := SchemaL.answered hq h
      simp only [Pair.answer, bind_eq_ok, pure_eq_ok] at hj
      obtain ⟨v, _, rfl⟩ := hj
      refine ⟨_, ht, _, rfl, ?_, ?_⟩
      · intro k hk
        rw [List.mem_singleton] at hk
        subst hk
        exact ⟨twoJ assetJ v.assets, by simp [Members.toList, Members.ofList]⟩
      · intro p hp u hu
        rw [List.mem_singleton] at hp
        subst hp
        simp only [Members.toList, Members.ofList, List.mem_cons, Prod.mk.injEq, List.not_mem_nil, or_false] at hu
        rcases hu with ⟨_, rfl⟩ | ⟨e, _⟩
        · exact SchemaL.twoJ_ok SchemaL.assetJ_ok _
        · exact absurd e (by decide)
  · rw [QueryCodec.smart_factory (ByteChain.look hr hs)] at h
    refine ⟨fun is hq => ?_, fun st l hq => ?_⟩
    · obtain ⟨j, hj, ht⟩ := SchemaL.answered hq h
      simp only [Factory.answer, bind_eq_ok, pure_eq_ok] at hj
      obtain ⟨v, _, rfl⟩ := hj
      exact ⟨_, ht, SchemaL.pairInfoJ_ok v⟩
    · obtain ⟨j, hj, ht⟩ := SchemaL.answered hq h
      simp only [Factory.answer, bind_eq_ok, pure_eq_ok] at hj
      obtain ⟨v, _, rfl⟩ := hj
      refine ⟨_, ht, ?_⟩
      intro u hu
      have : ∀ l : List Json, (Items.ofList l).toList = l := by
        intro l
        induction l with
        | nil => rfl
        | cons x t ih => simp [Items.ofList, Items.toList, ih]
      rw [this, List.mem_map] at hu
      obtain ⟨i, _, rfl⟩ := hu
      exact SchemaL.pairInfoJ_ok i

/-! ## Examples -/

/-- The pair of the demo answers. -/
example : (∃ b, smart Demo.chain (fun _ _ => .error .notFound) Demo.deployed 1 Demo.pAB (asc "{\"pair\": {}}") = .ok b) ∧
    readQuery .pair (asc "{\"pair\": {}}") = some .pair := by
  refine ⟨?_, by decide +kernel⟩
  have h : (Demo.val (smart Demo.chain (fun _ _ => .error .notFound) Demo.deployed 1 Demo.pAB (asc "{\"pair\": {}}"))).isSome = true := by
    decide +kernel
  obtain ⟨b, hb⟩ := Option.isSome_iff_exists.1 h
  exact ⟨b, Demo.val_eq hb⟩

/-- What the schema of `AssetInfo` allows and the code refuses: a further member. -/
def extraMember : Json := obj [(asc "token", obj [(asc "contract_addr", .str (asc "halo")), (asc "decimals", .num 6)])]

example : Schema.assetInfo extraMember ∧ asInfo extraMember = none := by
  refine ⟨⟨_, List.mem_cons_self, SchemaL.tag ⟨_, rfl, ?_, ?_⟩⟩, by decide +kernel⟩
  · intro k hk
    rw [List.mem_singleton] at hk
    subst hk
    exact ⟨_, List.mem_cons_self⟩
  · intro p hp v hv
    rw [List.mem_singleton] at hp
    subst hp
    simp only [Members.toList, Members.ofList, List.mem_cons, Prod.mk.injEq, List.not_mem_nil, or_false] at hv
    rcases hv with ⟨_, rfl⟩ | ⟨e, _⟩
    · exact ⟨_, rfl⟩
    · exact absurd e (by decide)

/-- The amounts of the example deposit in `contracts/halo-pair/README.md` are numbers. An asset with a number for its amount neither
conforms to the schema nor is read. -/
theorem C108_number_is_no_amount (m : Members) (n : Nat) (h : (asc "amount", Json.num n) ∈ m.toList) :
    ¬ Schema.asset (.obj m) ∧ asAsset (.obj m) = none := by
  have h1 : ¬ Schema.asset (.obj m) := by
    rintro ⟨m', e, _, h2⟩
    cases e
    obtain ⟨s, hs⟩ := h2 (asc "amount", Schema.string) (by simp) _ h
    cases hs
  refine ⟨h1, ?_⟩
  cases e : asAsset (.obj m) with
  | none => rfl
  | some a => exact absurd ((C108_asset _).1 ⟨a, e⟩).1 h1

/-- A native asset, as the code writes it, and in the other order: read, so it conforms. -/
example : (∃ i, asInfo (infoJ (.native (asc "uaura"))) = some i) ∧
    ∃ a, asAsset (obj [(asc "amount", .str (asc "+05")), (asc "info", infoJ (.native (asc "uaura")))]) = some a :=
  ⟨⟨.native (asc "uaura"), by decide +kernel⟩, ⟨⟨.native (asc "uaura"), 5⟩, by decide +kernel⟩⟩

/-- A pair, as the code writes it, has more than the schema names; cut down to that it still conforms, but is not read. -/
example : Schema.pairInfo (obj [(asc "asset_infos", twoJ infoJ (.native (asc "uaura"), .token (asc "halo"))),
      (asc "contract_addr", .str (asc "pair")), (asc "liquidity_token", .str (asc "lp"))]) ∧
    asPairInfo (obj [(asc "asset_infos", twoJ infoJ (.native (asc "uaura"), .token (asc "halo"))),
      (asc "contract_addr", .str (asc "pair")), (asc "liquidity_token", .str (asc "lp"))]) = none := by
  refine ⟨⟨_, rfl, ?_, ?_⟩, (C108_pair_info _).2 ?_⟩
  · intro k hk
    simp only [List.mem_cons, List.not_mem_nil, or_false] at hk
    rcases hk with rfl | rfl | rfl
    · exact ⟨_, List.mem_cons_self⟩
    · exact ⟨_, List.mem_cons_of_mem _ List.mem_cons_self⟩
    · exact ⟨_, List.mem_cons_of_mem _ (List.mem_cons_of_mem _ List.mem_cons_self)⟩
  · intro p hp v hv
    have e := (lookup_iff (by decide +kernel)).2 hv
    simp only [List.mem_cons, List.not_mem_nil, or_false] at hp
    rcases hp with rfl | rfl | rfl
    · cases e.symm.trans (rfl : _ = some (twoJ infoJ (.native (asc "uaura"), .token (asc "halo"))))
      exact SchemaL.twoJ_ok SchemaL.infoJ_ok _
    · cases e.symm.trans (rfl : _ = some (Json.str (asc "pair")))
      exact ⟨_, rfl⟩
    · cases e.symm.trans (rfl : _ = some (Json.str (asc "lp")))
      exact ⟨_, rfl⟩
  · rintro m e p hp
    cases e
    simp only [Members.toList, Members.ofList, List.mem_cons, List.not_mem_nil, or_false] at hp
    rcases hp with rfl | rfl | rfl <;> decide

end Halo
