import Verif.Lemmas.QueryCodecL3
import Verif.Props.Listing
import Verif.Props.Codec
/-! # Queries read from arbitrary bytes; answers as a client reads them -/

namespace Halo
open _root_.Halo.Spec
namespace QueryCodec

/-! ## What can be read -/

theorem unitCase_inv {m m' : QueryMsg} {b : Json} (h : unitCase m b = some m') : m' = m := by
  obtain ⟨_, _, h⟩ := Option.map_eq_some_iff.mp h
  exact h.symm

theorem fits_limit {l : Option Nat} {m : QueryMsg} (hm : queryNumbers m = (match l with | some n => [(32, n)] | none => []))
    (h : ∀ n, l = some n → n < B32) : FitsAll (queryNumbers m) := by
  rw [hm]
  cases l with
  | none => exact fun _ h => (nomatch h)
  | some n => intro e he; cases List.mem_singleton.mp he; exact h n rfl

theorem limit_inv {k : Str} {m : List (Str × Json)} {l : Option Nat} (h : optl (asNum B32) k m = some l) : ∀ n, l = some n → n < B32 := by
  rintro n rfl
  obtain ⟨_, h⟩ := optl_inv h rfl
  exact asNum_lt h

theorem read_inv {k : Kind} {b : Bytes} {m : QueryMsg} (h : readQuery k b = some m) : Asks k m ∧ FitsAll (queryNumbers m) := by
  rw [readQuery_eq] at h
  obtain ⟨j, _, h⟩ := Option.bind_eq_some_iff.mp h
  obtain ⟨t, b, f, _, hl, hf⟩ := tagged_inv h
  have hm := mem_of_lookup hl
  cases k with
  | token =>
    simp only [queriesOf, tokenQueries, List.mem_cons, Prod.mk.injEq, List.not_mem_nil, or_false] at hm
    rcases hm with ⟨_, rfl⟩ | ⟨_, rfl⟩ | ⟨_, rfl⟩ | ⟨_, rfl⟩ | ⟨_, rfl⟩ | ⟨_, rfl⟩ | ⟨_, rfl⟩ | ⟨_, rfl⟩ | ⟨_, rfl⟩
    · obtain ⟨_, _, hf⟩ := Option.bind_eq_some_iff.mp hf
      obtain ⟨_, _, rfl⟩ := Option.map_eq_some_iff.mp hf
      exact ⟨trivial, fitsNone rfl⟩
    · cases unitCase_inv hf; exact ⟨trivial, fitsNone rfl⟩
    · cases unitCase_inv hf; exact ⟨trivial, fitsNone rfl⟩
    · obtain ⟨_, _, hf⟩ := Option.bind_eq_some_iff.mp hf
      obtain ⟨_, _, hf⟩ := Option.bind_eq_some_iff.mp hf
      obtain ⟨_, _, hf⟩ := Option.bind_eq_some_iff.mp hf
      cases hf
      exact ⟨trivial, fitsNone rfl⟩
    · obtain ⟨_, _, hf⟩ := Option.bind_eq_some_iff.mp hf
      obtain ⟨_, _, hf⟩ := Option.bind_eq_some_iff.mp hf
      obtain ⟨_, _, hf⟩ := Option.bind_eq_some_iff.mp hf
      obtain ⟨l, hl, hf⟩ := Option.bind_eq_some_iff.mp hf
      cases hf
      exact ⟨trivial, fits_limit (l := l) (by cases l <;> rfl) (limit_inv hl)⟩
    · obtain ⟨_, _, hf⟩ := Option.bind_eq_some_iff.mp hf
      obtain ⟨_, _, hf⟩ := Option.bind_eq_some_iff.mp hf
      obtain ⟨_, _, hf⟩ := Option.bind_eq_some_iff.mp hf
      obtain ⟨l, hl, hf⟩ := Option.bind_eq_some_iff.mp hf
      cases hf
      exact ⟨trivial, fits_limit (l := l) (by cases l <;> rfl) (limit_inv hl)⟩
    · obtain ⟨_, _, hf⟩ := Option.bind_eq_some_iff.mp hf
      obtain ⟨_, _, hf⟩ := Option.bind_eq_some_iff.mp hf
      obtain ⟨l, hl, hf⟩ := Option.bind_eq_some_iff.mp hf
      cases hf
      exact ⟨trivial, fits_limit (l := l) (by cases l <;> rfl) (limit_inv hl)⟩
    · cases unitCase_inv hf; exact ⟨trivial, fitsNone rfl⟩
    · cases unitCase_inv hf; exact ⟨trivial, fitsNone rfl⟩
  | pair =>
    simp only [queriesOf, pairQueries, List.mem_cons, Prod.mk.injEq, List.not_mem_nil, or_false] at hm
    rcases hm with ⟨_, rfl⟩ | ⟨_, rfl⟩ | ⟨_, rfl⟩ | ⟨_, rfl⟩
    · cases unitCase_inv hf; exact ⟨trivial, fitsNone rfl⟩
    · cases unitCase_inv hf; exact ⟨trivial, fitsNone rfl⟩
    · obtain ⟨_, _, hf⟩ := Option.bind_eq_some_iff.mp hf
      obtain ⟨a, ha, rfl⟩ := Option.map_eq_some_iff.mp hf
      obtain ⟨_, ha⟩ := reqd_inv ha
      exact ⟨trivial, (fits128 rfl).mpr (asAsset_lt ha)⟩
    · obtain ⟨_, _, hf⟩ := Option.bind_eq_some_iff.mp hf
      obtain ⟨a, ha, rfl⟩ := Option.map_eq_some_iff.mp hf
      obtain ⟨_, ha⟩ := reqd_inv ha
      exact ⟨trivial, (fits128 rfl).mpr (asAsset_lt ha)⟩
  | factory =>
    simp only [queriesOf, factoryQueries, List.mem_cons, Prod.mk.injEq, List.not_mem_nil, or_false] at hm
    rcases hm with ⟨_, rfl⟩ | ⟨_, rfl⟩ | ⟨_, rfl⟩ | ⟨_, rfl⟩
    · cases unitCase_inv hf; exact ⟨trivial, fitsNone rfl⟩
    · obtain ⟨_, _, hf⟩ := Option.bind_eq_some_iff.mp hf
      obtain ⟨_, _, rfl⟩ := Option.map_eq_some_iff.mp hf
      exact ⟨trivial, fitsNone rfl⟩
    · obtain ⟨_, _, hf⟩ := Option.bind_eq_some_iff.mp hf
      obtain ⟨_, _, hf⟩ := Option.bind_eq_some_iff.mp hf
      obtain ⟨l, hl, hf⟩ := Option.bind_eq_some_iff.mp hf
      cases hf
      exact ⟨trivial, fits_limit (l := l) (by cases l <;> rfl) (limit_inv hl)⟩
    · obtain ⟨_, _, hf⟩ := Option.bind_eq_some_iff.mp hf
      obtain ⟨_, _, rfl⟩ := Option.map_eq_some_iff.mp hf
      exact ⟨trivial, fitsNone rfl⟩
  | router =>
    simp only [queriesOf, routerQueries, List.mem_cons, Prod.mk.injEq, List.not_mem_nil, or_false] at hm
    rcases hm with ⟨_, rfl⟩ | ⟨_, rfl⟩ | ⟨_, rfl⟩
    · cases unitCase_inv hf; exact ⟨trivial, fitsNone rfl⟩
    · obtain ⟨_, _, hf⟩ := Option.bind_eq_some_iff.mp hf
      obtain ⟨_, ha, hf⟩ := Option.bind_eq_some_iff.mp hf
      obtain ⟨_, _, hf⟩ := Option.bind_eq_some_iff.mp hf
      cases hf
      obtain ⟨_, ha⟩ := reqd_inv ha
      exact ⟨trivial, (fits128 rfl).mpr (asU128_lt ha)⟩
    · obtain ⟨_, _, hf⟩ := Option.bind_eq_some_iff.mp hf
      obtain ⟨_, ha, hf⟩ := Option.bind_eq_some_iff.mp hf
      obtain ⟨_, _, hf⟩ := Option.bind_eq_some_iff.mp hf
      cases hf
      obtain ⟨_, ha⟩ := reqd_inv ha
      exact ⟨trivial, (fits128 rfl).mpr (asU128_lt ha)⟩
  | other => cases hm

/-! ## What a client reads -/

/-- A client gets what the contract computed, when the answer can be read back. -/
theorem ask_client {α : Type} {sm : Str → Bytes → R Bytes} {a : Str} {k : Kind} {f : QueryMsg → R Json} (hs : sm a = answerBytes k f)
    {m : QueryMsg} (ha : Asks k m) (hf : FitsAll (queryNumbers m)) {q : R α} {J : α → Json} (hq : f m = q >>= fun x => pure (J x))
    {rd : Json → Option α} (hr : ∀ x, q = .ok x → rd (J x) = some x) : ask sm a m rd = q := by
  unfold ask
  rw [hs, ask_ok ha hf, hq]
  cases hx : q with
  | error e => rfl
  | ok x => show okOr (rd (J x)) .parse = .ok x; rw [hr x hx]; rfl

theorem toU128_lt {n v : Nat} (h : Uint256.toU128 n = .ok v) : v < B128 := by
  simp only [Uint256.toU128, bind_eq_ok, require_eq_ok, pure_eq_ok] at h
  obtain ⟨_, _, _, _, rfl⟩ := h
  have h0 : U256.limb n 0 < 2 ^ 64 := Nat.mod_lt _ (by norm_num)
  have h1 : U256.limb n 1 < 2 ^ 64 := Nat.mod_lt _ (by norm_num)
  rw [Nat.shiftLeft_eq]
  norm_num [B128] at h0 h1 ⊢
  omega

theorem computeSwap_lt {o a x : Nat} {v : Nat × Nat × Nat} (h : Pair.computeSwap o a x = .ok v) : v.1 < B128 ∧ v.2.1 < B128 ∧ v.2.2 < B128 := by
  simp only [Pair.computeSwap, bind_eq_ok, pure_eq_ok] at h
  obtain ⟨_, _, _, _, _, _, _, _, _, _, _, _, _, _, _, _, _, _, _, _, _, _, _, _, _, h1, _, h2, _, h3, rfl⟩ := h
  exact ⟨toU128_lt h1, toU128_lt h2, toU128_lt h3⟩

theorem computeOffer_lt {o a x : Nat} {v : Nat × Nat × Nat} (h : Pair.computeOfferAmount o a x = .ok v) :
    v.1 < B128 ∧ v.2.1 < B128 ∧ v.2.2 < B128 := by
  simp only [Pair.computeOfferAmount, bind_eq_ok, pure_eq_ok] at h
  obtain ⟨_, _, _, _, _, _, _, _, _, _, _, _, _, _, _, _, _, _, _, _, _, _, _, _, _, _, _, h1, _, h2, _, h3, rfl⟩ := h
  exact ⟨toU128_lt h1, toU128_lt h2, toU128_lt h3⟩

theorem simulation_lt {api : Api} {q : Querier} {s : Pair.State} {a : Asset} {r : SimResp} (h : Pair.querySimulation api q s a = .ok r) :
    r.amount < B128 ∧ r.spread < B128 ∧ r.commission < B128 := by
  simp only [Pair.querySimulation, bind_eq_ok, pure_eq_ok] at h
  obtain ⟨_, _, _, _, _, _, v, h, rfl⟩ := h
  exact computeSwap_lt h

theorem reverseSimulation_lt {api : Api} {q : Querier} {s : Pair.State} {a : Asset} {r : SimResp}
    (h : Pair.queryReverseSimulation api q s a = .ok r) : r.amount < B128 ∧ r.spread < B128 ∧ r.commission < B128 := by
  simp only [Pair.queryReverseSimulation, bind_eq_ok, pure_eq_ok] at h
  obtain ⟨_, _, _, _, _, _, v, h, rfl⟩ := h
  exact computeOffer_lt h

theorem pool_lt {c : Chain} {q : Querier} {w : World} {s : Pair.State} {p : PoolResp} (h : Pair.queryPool c.api (querier c q w) s = .ok p) :
    p.assets.1.amount < B128 ∧ p.assets.2.amount < B128 ∧ p.totalShare < B128 := by
  simp only [Pair.queryPool, PairInfoRaw.queryPools, bind_eq_ok, pure_eq_ok] at h
  obtain ⟨_, _, _, ⟨_, _, _, _, _, h1, _, h2, rfl⟩, _, _, ti, h3, rfl⟩ := h
  refine ⟨Wire.queryPool_lt h1, Wire.queryPool_lt h2, ?_⟩
  simp only [querier, baseQuerier, bind_eq_ok] at h3
  obtain ⟨st, _, h3⟩ := h3
  split at h3 <;> simp only [chkTI, bind_eq_ok, require_eq_ok, pure_eq_ok, reduceCtorEq] at h3
  · obtain ⟨_, _, _, ⟨h, _⟩, rfl⟩ := h3; exact h
  · obtain ⟨_, _, _, ⟨h, _⟩, rfl⟩ := h3; exact h

theorem expires_fits {e : Expiration} (h : e.inRange = true) : e.fits := by
  cases e with
  | never => trivial
  | atHeight n => exact of_decide_eq_true (p := n < B64) h
  | atTime n => exact of_decide_eq_true (p := n < B64) h

theorem mem_pageOf {V : Type} {l : List (Str × V)} {start : Option Str} {limit : Option Nat} {e : Str × V}
    (h : e ∈ Token.pageOf l start limit) : e ∈ l := by
  unfold Token.pageOf at h
  have := List.mem_of_mem_take h
  split at this
  · exact this
  · exact (List.mem_filter.mp this).1

theorem toNormal_same {api : Api} {p : PairInfoRaw} {i : PairInfo} (h : p.toNormal api = .ok i) :
    i.assetDecimals = p.assetDecimals ∧ i.requirements = p.requirements := by
  simp only [PairInfoRaw.toNormal, bind_eq_ok, pure_eq_ok] at h
  obtain ⟨_, _, _, _, _, _, _, _, rfl⟩ := h
  exact ⟨rfl, rfl⟩

theorem toNormalAll_mem {api : Api} : ∀ {l : List (Bytes × PairInfoRaw)} {is : List PairInfo}, Factory.toNormalAll api l = .ok is →
    ∀ i ∈ is, ∃ e ∈ l, e.2.toNormal api = .ok i
  | [], is, h => by cases h; exact fun _ h => (nomatch h)
  | (k, v) :: t, is, h => by
    unfold Factory.toNormalAll at h
    simp only [bind_eq_ok, pure_eq_ok] at h
    obtain ⟨p, hp, ps, hps, rfl⟩ := h
    intro i hi
    rcases List.mem_cons.mp hi with rfl | hi
    · exact ⟨_, List.mem_cons_self, hp⟩
    · obtain ⟨e, he, h⟩ := toNormalAll_mem hps i hi
      exact ⟨e, List.mem_cons_of_mem _ he, h⟩

theorem pair_fits {p : PairInfoRaw} (h : FitsAll (pairNumbers p)) : (p.assetDecimals.1 < 256 ∧ p.assetDecimals.2 < 256) ∧
    p.requirements.firstAssetMinimum < B128 ∧ p.requirements.secondAssetMinimum < B128 := by
  unfold pairNumbers at h
  exact ⟨⟨h (8, _) (by simp), h (8, _) (by simp)⟩, h (128, p.requirements.firstAssetMinimum) (by simp [reqNumbers]),
    h (128, p.requirements.secondAssetMinimum) (by simp [reqNumbers])⟩

theorem pairInfo_back {api : Api} {p : PairInfoRaw} {i : PairInfo} (hp : FitsAll (pairNumbers p)) (h : p.toNormal api = .ok i) :
    (i.assetDecimals.1 < 256 ∧ i.assetDecimals.2 < 256) ∧ i.requirements.firstAssetMinimum < B128 ∧ i.requirements.secondAssetMinimum < B128 := by
  rw [(toNormal_same h).1, (toNormal_same h).2]
  exact pair_fits hp

theorem mem_readPairs {api : Api} {s : Factory.State} {st : Option (AssetInfo × AssetInfo)} {l : Option Nat} {is : List PairInfo}
    (h : Factory.queryPairs api s st l = .ok is) : ∀ i ∈ is, ∃ e ∈ s.pairs, e.2.toNormal api = .ok i := by
  simp only [Factory.queryPairs, bind_eq_ok] at h
  obtain ⟨sa, _, h⟩ := h
  intro i hi
  obtain ⟨e, he, hn⟩ := toNormalAll_mem h i hi
  refine ⟨e, ?_, hn⟩
  have := List.mem_of_mem_take he
  unfold Factory.rangeFrom at this
  split at this
  · exact this
  · exact (List.mem_filter.mp this).1

end QueryCodec
end Halo
