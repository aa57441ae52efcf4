import Verif.Props.Events
import Verif.Lemmas.TextL
/-! # Announcements can be read back from their text (C74) -/

namespace Halo
open _root_.Halo.Spec

/-- C74: the text of an announcement determines what it says: two announcements with readable names are written the same way
exactly if they are of the same kind and name the same addresses, amounts and asset names. -/
theorem C74_text_determines {e e' : Event} (h : Readable e) (h' : Readable e') :
    e.attributes = e'.attributes ↔ SaysSame e e' := by
  constructor
  · intro hE
    cases e <;> cases e' <;>
      simp only [Event.attributes, List.cons.injEq, Prod.mk.injEq, and_true, true_and, List.nil_eq, reduceCtorEq, and_false,
        natToDec_inj, AssetInfo.text_eq] at hE
    case provideLiquidity.provideLiquidity s r as n s' r' as' n' =>
      obtain ⟨rfl, rfl, h1, rfl⟩ := hE
      rw [two_assets h.1 h.2 h'.1 h'.2] at h1
      exact .provide h1.1 h1.2
    case withdrawLiquidity.withdrawLiquidity s n as s' n' as' =>
      obtain ⟨rfl, rfl, h1⟩ := hE
      rw [two_assets h.1 h.2 h'.1 h'.2] at h1
      exact .withdraw h1.1 h1.2
    case swap.swap =>
      obtain ⟨rfl, rfl, h1, h2, rfl, rfl, rfl, rfl⟩ := hE
      exact .swap h1 h2
    case liquidityToken.liquidityToken => subst hE; exact .liquidityToken
    case updateConfig.updateConfig => exact .updateConfig
    case createPair.createPair =>
      rw [two_names h h'] at hE
      exact .createPair hE.1 hE.2
    case addNativeToken.addNativeToken => obtain ⟨rfl, rfl⟩ := hE; exact .addNativeToken
    case pairCreated.pairCreated => obtain ⟨rfl, rfl⟩ := hE; exact .pairCreated
    all_goals first
      | exact absurd hE (by decide)
      | exact absurd hE.1 (by decide)
      | exact absurd hE.1.1 (by decide)
  · intro hs
    cases hs with
    | provide h1 h2 => simp only [Event.attributes, sameAsset_text h1, sameAsset_text h2]
    | withdraw h1 h2 => simp only [Event.attributes, sameAsset_text h1, sameAsset_text h2]
    | swap h1 h2 => simp only [Event.attributes, AssetInfo.text_eq, h1, h2]
    | createPair h1 h2 => simp only [Event.attributes, AssetInfo.text_eq, h1, h2]
    | _ => rfl

theorem Reports.eq_of_text {i0 i1 : AssetInfo} (h0 : Clear (nameOf i0)) (h1 : Clear (nameOf i1)) (hne : nameOf i0 ≠ nameOf i1)
    {x x' : Pool × Call} {e e' : Event} (h : Reports i0 i1 x e) (h' : Reports i0 i1 x' e')
    (hE : e.attributes = e'.attributes) : e = e' := by
  have hr : ∀ {x : Pool × Call} {e : Event}, Reports i0 i1 x e → Readable e := by
    intro x e h
    unfold Reports at h
    split at h
    · trivial
    · trivial
    · rcases h.1 with rfl | rfl
      · exact ⟨h0, h1⟩
      · exact ⟨h1, h0⟩
    · rw [h.2]; exact ⟨h0, h1⟩
    · cases h
  have hs := (C74_text_determines (hr h) (hr h')).mp hE
  have sa : ∀ {a b : Asset}, SameAsset a b → (a.info = i0 ∨ a.info = i1) → (b.info = i0 ∨ b.info = i1) → a = b := by
    rintro ⟨i, n⟩ ⟨j, m⟩ ⟨g1, rfl⟩ g2 g3
    simp only at g1 g2 g3
    rcases g2 with rfl | rfl <;> rcases g3 with rfl | rfl
    · rfl
    · exact absurd g1 hne
    · exact absurd g1.symm hne
    · rfl
  have dep : ∀ {x : Pool × Call} {s r : Str} {as : Asset × Asset} {n : Nat}, Reports i0 i1 x (.provideLiquidity s r as n) →
      (as.1.info = i0 ∨ as.1.info = i1) ∧ (as.2.info = i0 ∨ as.2.info = i1) := by
    rintro ⟨b, x⟩ s r as n h
    cases x <;> simp only [Reports] at h
    rcases h.1 with rfl | rfl
    · exact ⟨.inl rfl, .inr rfl⟩
    · exact ⟨.inr rfl, .inl rfl⟩
  have wit : ∀ {x : Pool × Call} {s : Str} {as : Asset × Asset} {n : Nat}, Reports i0 i1 x (.withdrawLiquidity s n as) →
      (as.1.info = i0 ∨ as.1.info = i1) ∧ (as.2.info = i0 ∨ as.2.info = i1) := by
    rintro ⟨b, x⟩ s as n h
    cases x <;> simp only [Reports] at h
    rw [h.2]
    exact ⟨.inl rfl, .inr rfl⟩
  have swp : ∀ {x : Pool × Call} {s r : Str} {o a : AssetInfo} {n m u v : Nat}, Reports i0 i1 x (.swap s r o a n m u v) →
      (o = i0 ∧ a = i1) ∨ (o = i1 ∧ a = i0) := by
    rintro ⟨b, x⟩ s r o a n m u v h
    cases x <;> simp only [Reports] at h
    · exact .inl ⟨h.1, h.2.1⟩
    · exact .inr ⟨h.1, h.2.1⟩
  cases hs with
  | provide g1 g2 =>
    obtain ⟨a1, a2⟩ := dep h
    obtain ⟨b1, b2⟩ := dep h'
    rw [Prod.ext (sa g1 a1 b1) (sa g2 a2 b2)]
  | withdraw g1 g2 =>
    obtain ⟨a1, a2⟩ := wit h
    obtain ⟨b1, b2⟩ := wit h'
    rw [Prod.ext (sa g1 a1 b1) (sa g2 a2 b2)]
  | swap g1 g2 =>
    rcases swp h with ⟨rfl, rfl⟩ | ⟨rfl, rfl⟩ <;> rcases swp h' with ⟨rfl, rfl⟩ | ⟨rfl, rfl⟩
    · rfl
    · exact absurd g1 hne
    · exact absurd g1.symm hne
    · rfl
  | createPair => obtain ⟨_, x⟩ := x; cases x <;> cases h
  | _ => rfl

theorem forall₂_eq_of_text {i0 i1 : AssetInfo} (h0 : Clear (nameOf i0)) (h1 : Clear (nameOf i1))
    (hne : nameOf i0 ≠ nameOf i1) {l l' : List (Pool × Call)} {es es' : List Event} (h : List.Forall₂ (Reports i0 i1) l es)
    (h' : List.Forall₂ (Reports i0 i1) l' es') (hE : es.map Event.attributes = es'.map Event.attributes) : es = es' := by
  induction h generalizing l' es' with
  | nil =>
    cases h' with
    | nil => rfl
    | cons => cases hE
  | cons g _ ih =>
    cases h' with
    | nil => cases hE
    | cons g' h' =>
      simp only [List.map_cons, List.cons.injEq] at hE
      rw [Reports.eq_of_text h0 h1 hne g g' hE.1, ih h' hE.2]

/-- C74 for a pair: if the names of its two assets are different and readable, then the texts recorded under its address over
any history determine every announcement completely, so that C73 applies to somebody who only sees the texts. -/
theorem C74_pair_history {c : Chain} (hc : c.Lawful) {w w' w'' : World} (hw : Reachable c w) {tr tr' : List (World × Frame)}
    {es es' : List (Addr × Event)} (hl : Logged c w tr es w') (hl' : Logged c w tr' es' w'') {k : PairSite}
    (hk : k.Sound c w)
    (hb : ∀ v ∈ [w', w''], ¬ ((∃ adm, v.contracts k.a = some ⟨adm, .other⟩) ∨
      ∃ t adm, (k.i0 = .token t ∨ k.i1 = .token t) ∧ v.contracts t = some ⟨adm, .other⟩))
    (h0 : Clear (nameOf k.i0)) (h1 : Clear (nameOf k.i1)) (hne : nameOf k.i0 ≠ nameOf k.i1)
    (hE : (saidBy k.a es).map Event.attributes = (saidBy k.a es').map Event.attributes) :
    saidBy k.a es = saidBy k.a es' := by
  rcases C73_announced hc hw hl hk with h | h
  · exact absurd h (hb _ (by simp))
  rcases C73_announced hc hw hl' hk with h' | h'
  · exact absurd h' (hb _ (by simp))
  exact forall₂_eq_of_text h0 h1 hne h h' hE

/-- The condition on digits is needed: 1 of a coin named "0x" is written like 10 of a coin named "x". -/
theorem C74_digits_needed :
    (Event.withdrawLiquidity [] 1 (⟨.native (asc "0x"), 1⟩, ⟨.native (asc "y"), 1⟩)).attributes =
      (Event.withdrawLiquidity [] 1 (⟨.native (asc "x"), 10⟩, ⟨.native (asc "y"), 1⟩)).attributes := by
  decide +kernel

/-- The condition on dashes is needed: the announcement of a new pair of "abc-def" and "ghi" is written like that of "abc" and
"def-ghi", although the Cosmos SDK accepts all four as denominations. -/
theorem C74_dash_needed :
    (Event.createPair (.native (asc "abc-def"), .native (asc "ghi"))).attributes =
      (Event.createPair (.native (asc "abc"), .native (asc "def-ghi"))).attributes := by
  decide +kernel

/-- A coin and a token of the same name are written the same way. -/
theorem C74_kind_not_written (n : Str) : (Event.createPair (.native n, .native n)).attributes =
    (Event.createPair (.token n, .native n)).attributes := rfl

/-! ## Examples -/

namespace Demo

example : Readable (.provideLiquidity user user (⟨.native (asc "uaura"), 12⟩, ⟨.token (asc "aura1xyz"), 34⟩) 5) := by
  simp [Readable, Clear, nameOf, asc]

theorem clear_AB : Clear (nameOf siteAB.i0) ∧ Clear (nameOf siteAB.i1) ∧ nameOf siteAB.i0 ≠ nameOf siteAB.i1 := by
  refine ⟨⟨?_, ?_⟩, ⟨?_, ?_⟩, ?_⟩ <;> decide +kernel

theorem traded_sound : siteAB.Sound chain traded :=
  sound_of (k := siteAB) (x := tA) (y := tB) (by decide +kernel) ⟨rfl, rfl, rfl⟩ rfl rfl (by decide +kernel)
    (by decide +kernel)

example {tr : List (World × Frame)} {es : List (Addr × Event)} (hl : Logged chain deployed tr es traded) :=
  C74_pair_history lawful deployed_reachable trade_logged hl sound_AB
    (by intro v hv; have : v = traded := by simpa using hv
        subst this; exact not_broken traded_sound) clear_AB.1 clear_AB.2.1 clear_AB.2.2

/-- The text of the swap in `trade`. -/
example : ((saidBy pAB (logs trade deployed)).map Event.attributes).head? = some
    [(asc "action", asc "swap"), (asc "sender", user), (asc "receiver", user), (asc "offer_asset", tA), (asc "ask_asset", tB),
     (asc "offer_amount", asc "1000"), (asc "return_amount", asc "1813"), (asc "spread_amount", asc "182"),
     (asc "commission_amount", asc "5")] := by
  rw [trade_log]; decide +kernel

end Demo
end Halo
