import Verif.Lemmas.CodecL3
/-! # One message for all readers -/

namespace Halo
open _root_.Halo.Spec
namespace Codec

/-- What the contract of a kind reads, payloads interpreted by `pay`. -/
def casesOf (pay : Bytes → HookMsg) : Kind → List (Str × (Json → Option ExecMsg))
  | .token => tokenCases pay
  | .pair => pairCases pay
  | .router => routerCases pay
  | .factory => factoryCases
  | .other => []

/-- The pair's `Swap` payload as a message. -/
def directCases : List (Str × (Json → Option ExecMsg)) :=
  [(asc "swap", fun b => (swapFields b).map fun p => .swapDirect p.1 p.2.1 p.2.2)]

/-- Everything `classify` knows. -/
def allCases : List (Str × (Json → Option ExecMsg)) :=
  tokenCases classifyHook ++ (pairCases classifyHook ++ (routerCases classifyHook ++ (factoryCases ++ directCases)))

theorem classify_eq (b : Bytes) : classify b = ((Json.parse b).bind (tagged allCases)).getD (.raw b) := rfl

theorem lookup_or {β : Type} (l l' : List (Str × β)) (k : Str) : (l ++ l').lookup k = (l.lookup k).or (l'.lookup k) := by
  induction l with
  | nil => rfl
  | cons e t ih =>
    obtain ⟨a, f⟩ := e
    rw [List.cons_append, List.lookup_cons, List.lookup_cons, ih]
    cases (k == a) <;> rfl

theorem classifyHook_fits (p : Bytes) : FitsAll (hookNumbers (classifyHook p)) := by
  rcases classifyHook_cases p with ⟨h, _⟩ | ⟨h, _⟩ | ⟨h, _⟩
  · rcases readPairHook_inv h with ⟨_, _, _, e, h1, h2⟩ | e
    · rw [e]; exact fits_append (fits_opt128 h1) (fits_opt128 h2)
    · rw [e]; exact fits_nil
  · obtain ⟨_, _, _, e, h1⟩ := readRouterHook_inv h
    rw [e]; exact fits_opt128 h1
  · rw [h]; exact fits_nil

theorem casesOf_read {pay : Bytes → HookMsg} (hpay : ∀ p, FitsAll (hookNumbers (pay p))) {k : Kind} {t : Str}
    {f : Json → Option ExecMsg} {b : Json} {m : ExecMsg} (h : (t, f) ∈ casesOf pay k) (hf : f b = some m) : Read k pay m := by
  cases k with
  | token => exact token_read hpay h hf
  | pair => exact pair_read hpay h hf
  | router => exact router_read hpay h hf
  | factory => exact factory_read pay h hf
  | other => cases h

/-- Which contract a message belongs to is determined by its variant, except for `receive`. -/
theorem interface_unique {k k' : Kind} {m : ExecMsg} (h : InInterface k m) (h' : InInterface k' m) (hk : k ≠ k') :
    (k = .pair ∧ k' = .router ∨ k = .router ∧ k' = .pair) ∧ ∃ s a h, m = .receive s a h := by
  cases k <;> cases k' <;> first | exact absurd rfl hk | skip
  all_goals (cases m <;> first | exact absurd h (fun h => h) | exact absurd h' (fun h => h) | skip)
  · exact ⟨.inl ⟨rfl, rfl⟩, _, _, _, rfl⟩
  · exact ⟨.inr ⟨rfl, rfl⟩, _, _, _, rfl⟩

theorem direct_read {t : Str} {f : Json → Option ExecMsg} {b : Json} {m : ExecMsg} (h : (t, f) ∈ directCases) (hf : f b = some m) :
    ∃ p s r, m = .swapDirect p s r ∧ (∀ n, p = some n → n < B128) ∧ ∀ n, s = some n → n < B128 := by
  simp only [directCases, List.mem_cons, Prod.mk.injEq, List.not_mem_nil, or_false] at h
  obtain ⟨_, rfl⟩ := h
  obtain ⟨p, hp, rfl⟩ := Option.map_eq_some_iff.mp hf
  exact ⟨_, _, _, rfl, swapFields_inv hp⟩

/-- The tags of one contract. -/
def tagsOf (k : Kind) : List Str := (casesOf classifyHook k).map Prod.fst

theorem tagsOf_eq (pay : Bytes → HookMsg) (k : Kind) : (casesOf pay k).map Prod.fst = tagsOf k := by
  cases k <;> rfl

theorem tag_mem {pay : Bytes → HookMsg} {k : Kind} {t : Str} {f : Json → Option ExecMsg} (h : (casesOf pay k).lookup t = some f) :
    t ∈ tagsOf k := by
  rw [← tagsOf_eq pay k]
  exact List.mem_map_of_mem (f := Prod.fst) (mem_of_lookup h)

theorem lookup_none {pay : Bytes → HookMsg} {k : Kind} {t : Str} (h : t ∉ tagsOf k) : (casesOf pay k).lookup t = none := by
  cases hl : (casesOf pay k).lookup t with
  | none => rfl
  | some f => exact absurd (tag_mem hl) h

theorem all_find {t : Str} {f : Json → Option ExecMsg} (h : allCases.lookup t = some f) :
    (∃ k, (casesOf classifyHook k).lookup t = some f) ∨ directCases.lookup t = some f := by
  rw [allCases, lookup_or, lookup_or, lookup_or, lookup_or] at h
  cases h1 : (tokenCases classifyHook).lookup t with
  | some g => rw [h1] at h; exact .inl ⟨.token, by rw [← h]; exact h1⟩
  | none =>
    rw [h1, Option.none_or] at h
    cases h2 : (pairCases classifyHook).lookup t with
    | some g => rw [h2] at h; exact .inl ⟨.pair, by rw [← h]; exact h2⟩
    | none =>
      rw [h2, Option.none_or] at h
      cases h3 : (routerCases classifyHook).lookup t with
      | some g => rw [h3] at h; exact .inl ⟨.router, by rw [← h]; exact h3⟩
      | none =>
        rw [h3, Option.none_or] at h
        cases h4 : factoryCases.lookup t with
        | some g => rw [h4] at h; exact .inl ⟨.factory, by rw [← h]; exact h4⟩
        | none => rw [h4, Option.none_or] at h; exact .inr h

theorem find_all {k : Kind} {t : Str} {f : Json → Option ExecMsg} (h : (casesOf classifyHook k).lookup t = some f) :
    allCases.lookup t = some f := by
  have ht := tag_mem h
  have key : ∀ k' : Kind, t ∈ tagsOf k' → k' = k ∨ (t = asc "receive" ∧ (k = .pair ∨ k = .router) ∧ (k' = .pair ∨ k' = .router)) := by
    have : ∀ k k' : Kind, ∀ t ∈ tagsOf k, t ∈ tagsOf k' → k' = k ∨ (t = asc "receive" ∧ (k = .pair ∨ k = .router) ∧ (k' = .pair ∨ k' = .router)) := by
      intro k k'
      cases k <;> cases k' <;> decide +kernel
    exact fun k' => this k k' t ht
  rw [allCases, lookup_or, lookup_or, lookup_or, lookup_or]
  cases k with
  | token => rw [show (tokenCases classifyHook).lookup t = some f from h]; rfl
  | pair =>
    rw [show (tokenCases classifyHook).lookup t = none from lookup_none (k := .token) fun hm => by
      rcases key _ hm with e | ⟨_, _, e | e⟩ <;> cases e]
    rw [show (pairCases classifyHook).lookup t = some f from h]; rfl
  | router =>
    rw [show (tokenCases classifyHook).lookup t = none from lookup_none (k := .token) fun hm => by
      rcases key _ hm with e | ⟨_, _, e | e⟩ <;> cases e]
    cases h2 : (pairCases classifyHook).lookup t with
    | none => rw [show (routerCases classifyHook).lookup t = some f from h]; rfl
    | some g =>
      have hm : t ∈ tagsOf .pair := tag_mem (k := .pair) h2
      rcases key _ hm with e | ⟨rfl, _⟩
      · cases e
      · have e1 : (pairCases classifyHook).lookup (asc "receive") = some (asReceive classifyHook) := rfl
        have e2 : (routerCases classifyHook).lookup (asc "receive") = some (asReceive classifyHook) := rfl
        rw [e1] at h2
        cases h2
        rw [show (routerCases classifyHook).lookup (asc "receive") = some f from h] at e2
        cases e2
        rfl
  | factory =>
    rw [show (tokenCases classifyHook).lookup t = none from lookup_none (k := .token) fun hm => by
      rcases key _ hm with e | ⟨_, _, e | e⟩ <;> cases e]
    rw [show (pairCases classifyHook).lookup t = none from lookup_none (k := .pair) fun hm => by
      rcases key _ hm with e | ⟨_, e | e, _⟩ <;> cases e]
    rw [show (routerCases classifyHook).lookup t = none from lookup_none (k := .router) fun hm => by
      rcases key _ hm with e | ⟨_, e | e, _⟩ <;> cases e]
    rw [show factoryCases.lookup t = some f from h]; rfl
  | other => cases h

/-- A message in the interface of a contract is what that contract reads. -/
theorem all_iff {k : Kind} {j : Json} {m : ExecMsg} :
    (tagged allCases j = some m ∧ InInterface k m) ↔ tagged (casesOf classifyHook k) j = some m := by
  constructor
  · rintro ⟨h, hi⟩
    obtain ⟨t, b, f, rfl, hl, hf⟩ := tagged_inv h
    rcases all_find hl with ⟨k', hk⟩ | hd
    · have hr := casesOf_read classifyHook_fits (mem_of_lookup hk) hf
      by_cases hkk : k = k'
      · subst hkk; exact tagged_eq hk hf
      · obtain ⟨hc, s, a, x, rfl⟩ := interface_unique hi hr.shape hkk
        have ht : t = asc "receive" := by
          have hm := mem_of_lookup hk
          rcases hc with ⟨_, rfl⟩ | ⟨_, rfl⟩
          · simp only [casesOf, routerCases, List.mem_cons, Prod.mk.injEq, List.not_mem_nil, or_false] at hm
            rcases hm with ⟨ht, _⟩ | ⟨_, rfl⟩ | ⟨_, rfl⟩ | ⟨_, rfl⟩
            · exact ht
            · obtain ⟨_, _, e⟩ := Option.map_eq_some_iff.mp hf; cases e
            · obtain ⟨_, _, hf⟩ := Option.bind_eq_some_iff.mp hf
              obtain ⟨_, _, hf⟩ := Option.bind_eq_some_iff.mp hf
              obtain ⟨_, _, hf⟩ := Option.bind_eq_some_iff.mp hf
              cases hf
            · obtain ⟨_, _, hf⟩ := Option.bind_eq_some_iff.mp hf
              obtain ⟨_, _, hf⟩ := Option.bind_eq_some_iff.mp hf
              obtain ⟨_, _, hf⟩ := Option.bind_eq_some_iff.mp hf
              obtain ⟨_, _, hf⟩ := Option.bind_eq_some_iff.mp hf
              obtain ⟨_, _, hf⟩ := Option.bind_eq_some_iff.mp hf
              cases hf
          · simp only [casesOf, pairCases, List.mem_cons, Prod.mk.injEq, List.not_mem_nil, or_false] at hm
            rcases hm with ⟨ht, _⟩ | ⟨_, rfl⟩
            · exact ht
            · obtain ⟨_, _, hf⟩ := Option.bind_eq_some_iff.mp hf
              obtain ⟨_, _, hf⟩ := Option.bind_eq_some_iff.mp hf
              obtain ⟨_, _, hf⟩ := Option.bind_eq_some_iff.mp hf
              obtain ⟨_, _, hf⟩ := Option.bind_eq_some_iff.mp hf
              cases hf
        subst ht
        have e1 : (pairCases classifyHook).lookup (asc "receive") = some (asReceive classifyHook) := rfl
        have e2 : (routerCases classifyHook).lookup (asc "receive") = some (asReceive classifyHook) := rfl
        rcases hc with ⟨rfl, rfl⟩ | ⟨rfl, rfl⟩
        · rw [show (routerCases classifyHook).lookup (asc "receive") = some f from hk] at e2
          cases e2
          exact tagged_eq e1 hf
        · rw [show (pairCases classifyHook).lookup (asc "receive") = some f from hk] at e1
          cases e1
          exact tagged_eq e2 hf
    · obtain ⟨_, _, _, rfl, _⟩ := direct_read (mem_of_lookup hd) hf
      cases k <;> exact absurd hi (fun h => h)
  · intro h
    obtain ⟨t, b, f, rfl, hl, hf⟩ := tagged_inv h
    exact ⟨tagged_eq (find_all hl) hf, (casesOf_read classifyHook_fits (mem_of_lookup hl) hf).shape⟩

/-- Reading with another view of payloads changes only the payload of `receive`. -/
theorem repay {k : Kind} (hk : k ≠ .token) {pay : Bytes → HookMsg} {j : Json} {m : ExecMsg} (h : tagged (casesOf pay k) j = some m) :
    (∃ s a p, m = .receive s a (pay p) ∧ ∀ pay', tagged (casesOf pay' k) j = some (.receive s a (pay' p))) ∨
      ((∀ s a x, m ≠ .receive s a x) ∧ ∀ pay', tagged (casesOf pay' k) j = some m) := by
  obtain ⟨t, b, f, rfl, hl, hf⟩ := tagged_inv h
  have hm := mem_of_lookup hl
  have hrec : ∀ k : Kind, k = .pair ∨ k = .router → t = asc "receive" → f = asReceive pay →
      ∃ s a p, m = .receive s a (pay p) ∧ ∀ pay', tagged (casesOf pay' k) (variant t b) = some (.receive s a (pay' p)) := by
    rintro k hk rfl rfl
    obtain ⟨s, a, p, _, hp⟩ := receive_read hf
    refine ⟨s, a, p, Option.some.inj (hf.symm.trans (hp pay)), fun pay' => ?_⟩
    rcases hk with rfl | rfl
    · exact tagged_eq (f := asReceive pay') rfl (hp pay')
    · exact tagged_eq (f := asReceive pay') rfl (hp pay')
  cases k with
  | token => exact absurd rfl hk
  | other => cases hm
  | factory => exact .inr ⟨fun s a x e => by subst e; exact (casesOf_read classifyHook_fits (k := .factory) hm hf).shape, fun _ => h⟩
  | pair =>
    simp only [casesOf, pairCases, List.mem_cons, Prod.mk.injEq, List.not_mem_nil, or_false] at hm
    rcases hm with ⟨ht, rfl⟩ | ⟨ht, rfl⟩
    · exact .inl (hrec .pair (.inl rfl) ht rfl)
    · refine .inr ⟨?_, fun pay' => by subst ht; exact tagged_eq (f := asProvide) rfl hf⟩
      rintro s a x rfl
      obtain ⟨_, _, hf⟩ := Option.bind_eq_some_iff.mp hf
      obtain ⟨_, _, hf⟩ := Option.bind_eq_some_iff.mp hf
      obtain ⟨_, _, hf⟩ := Option.bind_eq_some_iff.mp hf
      obtain ⟨_, _, hf⟩ := Option.bind_eq_some_iff.mp hf
      cases hf
  | router =>
    simp only [casesOf, routerCases, List.mem_cons, Prod.mk.injEq, List.not_mem_nil, or_false] at hm
    rcases hm with ⟨ht, rfl⟩ | ⟨ht, rfl⟩ | ⟨ht, rfl⟩ | ⟨ht, rfl⟩
    · exact .inl (hrec .router (.inr rfl) ht rfl)
    · refine .inr ⟨?_, fun pay' => by subst ht; exact tagged_eq rfl hf⟩
      rintro s a x rfl
      obtain ⟨_, _, e⟩ := Option.map_eq_some_iff.mp hf
      cases e
    · refine .inr ⟨?_, fun pay' => by subst ht; exact tagged_eq (f := asOperation) rfl hf⟩
      rintro s a x rfl
      obtain ⟨_, _, hf⟩ := Option.bind_eq_some_iff.mp hf
      obtain ⟨_, _, hf⟩ := Option.bind_eq_some_iff.mp hf
      obtain ⟨_, _, hf⟩ := Option.bind_eq_some_iff.mp hf
      cases hf
    · refine .inr ⟨?_, fun pay' => by subst ht; exact tagged_eq (f := asAssertMinimum) rfl hf⟩
      rintro s a x rfl
      obtain ⟨_, _, hf⟩ := Option.bind_eq_some_iff.mp hf
      obtain ⟨_, _, hf⟩ := Option.bind_eq_some_iff.mp hf
      obtain ⟨_, _, hf⟩ := Option.bind_eq_some_iff.mp hf
      obtain ⟨_, _, hf⟩ := Option.bind_eq_some_iff.mp hf
      obtain ⟨_, _, hf⟩ := Option.bind_eq_some_iff.mp hf
      cases hf

end Codec
end Halo
