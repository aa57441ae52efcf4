import Verif.Spec.QueryCodec
import Verif.Lemmas.CodecL2
import Verif.Lemmas.CodecL3
/-! # Reading back written queries and answers -/

namespace Halo
open _root_.Halo.Spec
namespace QueryCodec

/-! ## Numbers, whether or not they fit -/

theorem asU128_J (n : Nat) : asU128 (u128J n) = if n < B128 then some n else none := by
  split
  · exact asU128_u128J ‹_›
  · cases h : asU128 (u128J n) with
    | none => rfl
    | some m =>
      have hs : Uint128.fromDecStr (natToDec n) = some m := h
      rw [Uint128.fromDecStr_eq_some, dropPlus_digits (natToDec_all n), dval_natToDec] at hs
      exact absurd hs.2.2.1 ‹_›

/-- The first part is read, the rest follows. -/
theorem bthen {α β : Type} {o : Option α} {g : α → Option β} {x : α} {y : Option β} (h1 : o = some x) (h2 : g x = y) :
    (o >>= g) = y := by rw [h1]; exact h2

/-- A part that may be refused. -/
theorem bwhen {α β : Type} {o : Option α} {g : α → Option β} {p : Prop} [Decidable p] {x : α} {y : β}
    (h1 : o = if p then some x else none) (h2 : p → g x = some y) : (o >>= g) = if p then some y else none := by
  rw [h1]
  by_cases hp : p
  · rw [if_pos hp, if_pos hp]; exact h2 hp
  · rw [if_neg hp, if_neg hp]; rfl

theorem mwhen {α β : Type} {o : Option α} {g : α → β} {p : Prop} [Decidable p] {x : α}
    (h1 : o = if p then some x else none) : o.map g = if p then some (g x) else none := by
  rw [h1]; split <;> rfl

theorem reqd_at {α : Type} {f : Json → Option α} {k : Str} {m : List (Str × Json)} {j : Json} (h : m.lookup k = some j) :
    reqd f k m = f j := by rw [reqd, h]; rfl

theorem asAsset_J (a : Asset) : asAsset (assetJ a) = if a.amount < B128 then some a else none :=
  bthen (structOf_obj rfl) (bthen (reqd_eq rfl (asInfo_infoJ _)) (bwhen ((reqd_at rfl).trans (asU128_J _)) fun _ => rfl))

theorem nullable_num {b : Nat} (o : Option Nat) : nullable (asNum b) (optJ .num o) = if ∀ n, o = some n → n < b then some o else none := by
  cases o with
  | none => rw [if_pos (fun _ h => nomatch h)]; rfl
  | some n =>
    by_cases h : n < b
    · rw [if_pos (fun m e => by cases e; exact h)]
      exact opt_num (o := some n) fun m e => by cases e; exact h
    · rw [if_neg (fun f => h (f n rfl))]
      show (if n < b then some n else none).map some = none
      rw [if_neg h]; rfl

/-! ## Requests -/

theorem fits32 {o : Option Nat} {m : QueryMsg} (h : queryNumbers m = o.toList.map fun v => (32, v)) :
    FitsAll (queryNumbers m) ↔ ∀ n, o = some n → n < B32 := by
  rw [h]
  constructor
  · intro h n e; subst e; exact h _ (List.mem_singleton_self _)
  · intro h e he
    obtain ⟨v, hv, rfl⟩ := List.mem_map.mp he
    exact h v (Option.mem_toList.mp hv)

theorem fits128 {n : Nat} {m : QueryMsg} (h : queryNumbers m = [(128, n)]) : FitsAll (queryNumbers m) ↔ n < B128 := by
  rw [h]
  exact ⟨fun h => h _ (List.mem_singleton_self _), fun h e he => by cases List.mem_singleton.mp he; exact h⟩

theorem fitsNone {m : QueryMsg} (h : queryNumbers m = []) : FitsAll (queryNumbers m) := by rw [h]; exact fun _ h => (nomatch h)

theorem read_tagged {cs : List (Str × (Json → Option QueryMsg))} {t : Str} {b : Json} {f : Json → Option QueryMsg}
    (h1 : cs.lookup t = some f) : tagged cs (variant t b) = f b := by rw [tagged_variant, h1]; rfl

theorem optl_at {α : Type} {f : Json → Option α} {k : Str} {m : List (Str × Json)} {j : Json} (h : m.lookup k = some j) :
    optl f k m = nullable f j := by rw [optl, h]

theorem asOwnerList_J {w : Str} {s : Option Str} {l : Option Nat} :
    asListOf (asc "owner") .allAllowances (obj [(asc "owner", .str w), (asc "start_after", optJ .str s), (asc "limit", optJ .num l)]) =
      if ∀ n, l = some n → n < B32 then some (.allAllowances w s l) else none :=
  bthen (structOf_obj rfl) (bthen (reqd_eq (j := .str w) rfl rfl) (bthen (optl_eq rfl (opt_str s))
    (bwhen ((optl_at rfl).trans (nullable_num l)) fun _ => rfl)))

theorem asSpenderList_J {w : Str} {s : Option Str} {l : Option Nat} :
    asListOf (asc "spender") .allSpenderAllowances
        (obj [(asc "spender", .str w), (asc "start_after", optJ .str s), (asc "limit", optJ .num l)]) =
      if ∀ n, l = some n → n < B32 then some (.allSpenderAllowances w s l) else none :=
  bthen (structOf_obj rfl) (bthen (reqd_eq (j := .str w) rfl rfl) (bthen (optl_eq rfl (opt_str s))
    (bwhen ((optl_at rfl).trans (nullable_num l)) fun _ => rfl)))

theorem asAllAccounts_J (s : Option Str) (l : Option Nat) :
    asAllAccounts (obj [(asc "start_after", optJ .str s), (asc "limit", optJ .num l)]) =
      if ∀ n, l = some n → n < B32 then some (.allAccounts s l) else none :=
  bthen (structOf_obj rfl) (bthen (optl_eq rfl (opt_str s)) (bwhen ((optl_at rfl).trans (nullable_num l)) fun _ => rfl))

theorem asPairsQ_J (s : Option (AssetInfo × AssetInfo)) (l : Option Nat) :
    asPairsQ (obj [(asc "start_after", optJ (twoJ infoJ) s), (asc "limit", optJ .num l)]) =
      if ∀ n, l = some n → n < B32 then some (.pairs s l) else none :=
  bthen (structOf_obj rfl) (bthen (optl_eq rfl (nullable_optJ s (fun p _ => asTwo_twoJ p (asInfo_infoJ _) (asInfo_infoJ _))
    (fun _ h => nomatch h))) (bwhen ((optl_at rfl).trans (nullable_num l)) fun _ => rfl))

theorem asForward_J {a : Nat} {ops : List SwapOp} :
    asRouteQ (asc "offer_amount") .simulateSwapOperations (obj [(asc "offer_amount", u128J a), (asc "operations", vecJ opJ ops)]) =
      if a < B128 then some (.simulateSwapOperations a ops) else none :=
  bthen (structOf_obj rfl) (bwhen ((reqd_at rfl).trans (asU128_J _)) fun _ => bthen (reqd_eq rfl (asVec_vecJ ops fun o _ => asOp_opJ o)) rfl)

theorem asBackward_J {a : Nat} {ops : List SwapOp} :
    asRouteQ (asc "ask_amount") .reverseSimulateSwapOperations (obj [(asc "ask_amount", u128J a), (asc "operations", vecJ opJ ops)]) =
      if a < B128 then some (.reverseSimulateSwapOperations a ops) else none :=
  bthen (structOf_obj rfl) (bwhen ((reqd_at rfl).trans (asU128_J _)) fun _ => bthen (reqd_eq rfl (asVec_vecJ ops fun o _ => asOp_opJ o)) rfl)

/-- The queries of a contract. -/
def queriesOf : Kind → List (Str × (Json → Option QueryMsg))
  | .token => tokenQueries
  | .pair => pairQueries
  | .factory => factoryQueries
  | .router => routerQueries
  | .other => []

theorem readQuery_eq (k : Kind) (b : Bytes) : readQuery k b = (Json.parse b).bind (tagged (queriesOf k)) := by
  cases k with
  | other =>
    show (Json.parse b).bind (fun _ => none) = (Json.parse b).bind (tagged [])
    congr 1
    funext j
    unfold tagged
    split <;> rfl
  | _ => rfl

theorem read_written (k : Kind) (m : QueryMsg) : readQuery k (writeQuery m) = tagged (queriesOf k) (queryJ m) := by
  rw [readQuery_eq, writeQuery, Json.parse_print]; rfl

/-- A contract reads a written query exactly when it is one of its own and its numbers fit. -/
theorem read_some {k : Kind} {m : QueryMsg} (ha : Asks k m) (hf : FitsAll (queryNumbers m)) : readQuery k (writeQuery m) = some m := by
  rw [read_written]
  cases k <;> cases m <;> first
    | exact absurd ha (fun h => h)
    | rfl
    | skip
  case token.allAllowances o s l =>
    exact (read_tagged (f := asListOf (asc "owner") .allAllowances) rfl).trans (asOwnerList_J.trans
      (if_pos ((fits32 (o := l) (by cases l <;> rfl)).mp hf)))
  case token.allSpenderAllowances o s l =>
    exact (read_tagged (f := asListOf (asc "spender") .allSpenderAllowances) rfl).trans (asSpenderList_J.trans
      (if_pos ((fits32 (o := l) (by cases l <;> rfl)).mp hf)))
  case token.allAccounts s l =>
    exact (read_tagged (f := asAllAccounts) rfl).trans ((asAllAccounts_J s l).trans
      (if_pos ((fits32 (o := l) (by cases l <;> rfl)).mp hf)))
  case pair.simulation a =>
    refine (read_tagged (b := obj [(asc "offer_asset", assetJ a)]) rfl).trans ?_
    exact bthen (structOf_obj rfl) (msome (reqd_eq rfl (asAsset_assetJ a ((fits128 rfl).mp hf))) rfl)
  case pair.reverseSimulation a =>
    refine (read_tagged (b := obj [(asc "ask_asset", assetJ a)]) rfl).trans ?_
    exact bthen (structOf_obj rfl) (msome (reqd_eq rfl (asAsset_assetJ a ((fits128 rfl).mp hf))) rfl)
  case factory.pairOf is =>
    refine (read_tagged (b := obj [(asc "asset_infos", twoJ infoJ is)]) rfl).trans ?_
    exact bthen (structOf_obj rfl) (msome (reqd_eq rfl (asTwo_twoJ is (asInfo_infoJ _) (asInfo_infoJ _))) rfl)
  case factory.pairs s l =>
    exact (read_tagged (f := asPairsQ) rfl).trans ((asPairsQ_J s l).trans (if_pos ((fits32 (o := l) (by cases l <;> rfl)).mp hf)))
  case router.simulateSwapOperations a ops =>
    exact (read_tagged (f := asRouteQ (asc "offer_amount") .simulateSwapOperations) rfl).trans (asForward_J.trans
      (if_pos ((fits128 rfl).mp hf)))
  case router.reverseSimulateSwapOperations a ops =>
    exact (read_tagged (f := asRouteQ (asc "ask_amount") .reverseSimulateSwapOperations) rfl).trans (asBackward_J.trans
      (if_pos ((fits128 rfl).mp hf)))

theorem read_refused {k : Kind} {m : QueryMsg} (h : ¬ (Asks k m ∧ FitsAll (queryNumbers m))) : readQuery k (writeQuery m) = none := by
  rw [read_written]
  cases k <;> cases m <;> first
    | rfl
    | (exfalso; exact h ⟨trivial, fitsNone rfl⟩)
    | skip
  case token.allAllowances o s l =>
    exact (read_tagged (f := asListOf (asc "owner") .allAllowances) rfl).trans (asOwnerList_J.trans
      (if_neg fun e => h ⟨trivial, (fits32 (o := l) (by cases l <;> rfl)).mpr e⟩))
  case token.allSpenderAllowances o s l =>
    exact (read_tagged (f := asListOf (asc "spender") .allSpenderAllowances) rfl).trans (asSpenderList_J.trans
      (if_neg fun e => h ⟨trivial, (fits32 (o := l) (by cases l <;> rfl)).mpr e⟩))
  case token.allAccounts s l =>
    exact (read_tagged (f := asAllAccounts) rfl).trans ((asAllAccounts_J s l).trans
      (if_neg fun e => h ⟨trivial, (fits32 (o := l) (by cases l <;> rfl)).mpr e⟩))
  case pair.simulation a =>
    refine (read_tagged (b := obj [(asc "offer_asset", assetJ a)]) rfl).trans ?_
    exact (bthen (structOf_obj rfl) (mwhen ((reqd_at rfl).trans (asAsset_J a)))).trans (if_neg fun e => h ⟨trivial, (fits128 rfl).mpr e⟩)
  case pair.reverseSimulation a =>
    refine (read_tagged (b := obj [(asc "ask_asset", assetJ a)]) rfl).trans ?_
    exact (bthen (structOf_obj rfl) (mwhen ((reqd_at rfl).trans (asAsset_J a)))).trans (if_neg fun e => h ⟨trivial, (fits128 rfl).mpr e⟩)
  case factory.pairs s l =>
    exact (read_tagged (f := asPairsQ) rfl).trans ((asPairsQ_J s l).trans
      (if_neg fun e => h ⟨trivial, (fits32 (o := l) (by cases l <;> rfl)).mpr e⟩))
  case router.simulateSwapOperations a ops =>
    exact (read_tagged (f := asRouteQ (asc "offer_amount") .simulateSwapOperations) rfl).trans (asForward_J.trans
      (if_neg fun e => h ⟨trivial, (fits128 rfl).mpr e⟩))
  case router.reverseSimulateSwapOperations a ops =>
    exact (read_tagged (f := asRouteQ (asc "ask_amount") .reverseSimulateSwapOperations) rfl).trans (asBackward_J.trans
      (if_neg fun e => h ⟨trivial, (fits128 rfl).mpr e⟩))

end QueryCodec
end Halo
