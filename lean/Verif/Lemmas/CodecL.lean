import Verif.Codec
import Verif.Lemmas.JsonL
import Verif.Lemmas.DecStrL2
/-! # Reading back written messages -/

namespace Halo

theorem Members.toList_ofList (l : List (Str × Json)) : (Members.ofList l).toList = l := by
  induction l with
  | nil => rfl
  | cons e t ih => obtain ⟨k, j⟩ := e; rw [Members.ofList, Members.toList, ih]

theorem structOf_obj {names : List Str} {l : List (Str × Json)}
    (h : decide ((l.map Prod.fst).all names.contains = true ∧ (l.map Prod.fst).Nodup) = true) : structOf names (obj l) = some l := by
  rw [obj, structOf, Members.toList_ofList, if_pos (of_decide_eq_true h)]

theorem tagged_variant {α : Type} (cases : List (Str × (Json → Option α))) (k : Str) (b : Json) :
    tagged cases (variant k b) = (cases.lookup k).bind fun f => f b := rfl

theorem tagged_eq {α : Type} {cases : List (Str × (Json → Option α))} {k : Str} {b : Json} {f : Json → Option α} {x : α}
    (h1 : cases.lookup k = some f) (h2 : f b = some x) : tagged cases (variant k b) = some x := by
  rw [tagged_variant, h1]; exact h2

theorem asU128_u128J {n : Nat} (h : n < B128) : asU128 (u128J n) = some n := by
  show Uint128.fromDecStr (natToDec n) = some n
  rw [Uint128.fromDecStr_eq_some, dropPlus_digits (natToDec_all n), dval_natToDec]
  exact ⟨natToDec_all n, natToDec_ne_nil n, h, rfl⟩

theorem asDecimal_decimalJ {d : Nat} (h : d < B128) : asDecimal (decimalJ d) = some d := by
  show (Decimal.fromStr (Dec256.toStr d)).toOption = some d
  rw [decimal_fromStr_toStr h]; rfl

theorem asInfo_infoJ (i : AssetInfo) : asInfo (infoJ i) = some i := by
  cases i <;> rfl

theorem bsome {α β : Type} {o : Option α} {g : α → Option β} {x : α} {y : β} (h1 : o = some x) (h2 : g x = some y) :
    (o >>= g) = some y := by rw [h1]; exact h2

theorem msome {α β : Type} {o : Option α} {g : α → β} {x : α} {y : β} (h1 : o = some x) (h2 : g x = y) :
    o.map g = some y := by rw [h1, ← h2]; rfl

theorem reqd_eq {α : Type} {f : Json → Option α} {k : Str} {m : List (Str × Json)} {j : Json} {x : α} (h1 : m.lookup k = some j)
    (h2 : f j = some x) : reqd f k m = some x := by rw [reqd, h1]; exact h2

theorem optl_eq {α : Type} {f : Json → Option α} {k : Str} {m : List (Str × Json)} {j : Json} {x : Option α} (h1 : m.lookup k = some j)
    (h2 : nullable f j = some x) : optl f k m = some x := by rw [optl, h1]; exact h2

theorem asAsset_assetJ (a : Asset) (h : a.amount < B128) : asAsset (assetJ a) = some a :=
  bsome (structOf_obj rfl) (bsome (reqd_eq rfl (asInfo_infoJ _)) (bsome (reqd_eq rfl (asU128_u128J h)) rfl))

theorem asElems_ofList {α : Type} {f : Json → Option α} {g : α → Json} (l : List α) (h : ∀ x ∈ l, f (g x) = some x) :
    asElems f (Items.ofList (l.map g)) = some l := by
  induction l with
  | nil => rfl
  | cons x t ih =>
    rw [List.map_cons, Items.ofList, asElems, h x List.mem_cons_self, ih fun y hy => h y (List.mem_cons_of_mem _ hy)]
    rfl

theorem asVec_vecJ {α : Type} {f : Json → Option α} {g : α → Json} (l : List α) (h : ∀ x ∈ l, f (g x) = some x) :
    asVec f (vecJ g l) = some l := asElems_ofList l h

theorem asTwo_twoJ {α : Type} {f : Json → Option α} {g : α → Json} (p : α × α) (h1 : f (g p.1) = some p.1) (h2 : f (g p.2) = some p.2) :
    asTwo f (twoJ g p) = some p := by
  show (f (g p.1)).bind (fun x => (f (g p.2)).bind fun y => some (x, y)) = some p
  rw [h1, h2]; rfl

theorem nullable_optJ {α : Type} {f : Json → Option α} {g : α → Json} (o : Option α) (h : ∀ x, o = some x → f (g x) = some x)
    (hn : ∀ x, g x ≠ .null) : nullable f (optJ g o) = some o := by
  cases o with
  | none => rfl
  | some x =>
    have := h x rfl
    show nullable f (g x) = _
    cases hg : g x with
    | null => exact absurd hg (hn x)
    | _ => rw [hg] at this; simp only [nullable, this, Option.map_some]

theorem opt_str (o : Option Str) : nullable asStr (optJ .str o) = some o :=
  nullable_optJ o (fun _ _ => rfl) (fun _ h => nomatch h)

theorem opt_u128 {o : Option Nat} (h : ∀ n, o = some n → n < B128) : nullable asU128 (optJ u128J o) = some o :=
  nullable_optJ o (fun n hn => asU128_u128J (h n hn)) (fun _ h => nomatch h)

theorem opt_decimal {o : Option Nat} (h : ∀ n, o = some n → n < B128) : nullable asDecimal (optJ decimalJ o) = some o :=
  nullable_optJ o (fun n hn => asDecimal_decimalJ (h n hn)) (fun _ h => nomatch h)

theorem asNum_num {n b : Nat} (h : n < b) : asNum b (.num n) = some n := if_pos h

theorem opt_num {o : Option Nat} {b : Nat} (h : ∀ n, o = some n → n < b) : nullable (asNum b) (optJ .num o) = some o :=
  nullable_optJ o (fun n hn => asNum_num (h n hn)) (fun _ h => nomatch h)

theorem asRequirements_J (r : Requirements) (h1 : r.firstAssetMinimum < B128) (h2 : r.secondAssetMinimum < B128) :
    asRequirements (requirementsJ r) = some r :=
  bsome (structOf_obj rfl) (bsome (reqd_eq rfl (asVec_vecJ _ fun _ _ => rfl)) (bsome (reqd_eq rfl (asU128_u128J h1))
    (bsome (reqd_eq rfl (asU128_u128J h2)) rfl)))

theorem asOp_opJ (o : SwapOp) : asOp (opJ o) = some o :=
  tagged_eq rfl (bsome (structOf_obj rfl) (bsome (reqd_eq rfl (asInfo_infoJ _)) (bsome (reqd_eq rfl (asInfo_infoJ _)) rfl)))

/-- The numbers of an expiration fit `u64`. -/
def Expiration.fits : Expiration → Prop
  | .atHeight h => h < B64
  | .atTime t => t < B64
  | .never => True

theorem asExpiration_J (e : Expiration) (h : e.fits) : asExpiration (expirationJ e) = some e := by
  cases e with
  | atHeight n => exact msome (asNum_num h) rfl
  | atTime n =>
    refine msome (x := n) ?_ rfl
    show (asU128 (u128J n)).bind _ = _
    have hB : B64 < B128 := by norm_num [B64, B128]
    rw [asU128_u128J (lt_trans h hB)]
    exact if_pos h
  | never => rfl

theorem opt_expiration (o : Option Expiration) (h : ∀ e, o = some e → e.fits) :
    nullable asExpiration (optJ expirationJ o) = some o :=
  nullable_optJ o (fun e he => asExpiration_J e (h e he)) (fun e h => by cases e <;> nomatch h)

theorem asMinter_J (m : MinterResp) (h : ∀ n, m.cap = some n → n < B128) : asMinter (minterJ m) = some m :=
  bsome (structOf_obj rfl) (bsome (reqd_eq (j := .str m.minter) rfl rfl) (bsome (optl_eq rfl (opt_u128 h)) rfl))

theorem asCw20Coin_J (e : Str × Nat) (h : e.2 < B128) : asCw20Coin (cw20CoinJ e) = some e :=
  bsome (structOf_obj rfl) (bsome (reqd_eq (j := .str e.1) rfl rfl) (bsome (reqd_eq rfl (asU128_u128J h)) rfl))

theorem swapFields_J {b m : Option Nat} {t : Option Str} (hb : ∀ n, b = some n → n < B128) (hm : ∀ n, m = some n → n < B128) :
    swapFields (obj [(asc "belief_price", optJ decimalJ b), (asc "max_spread", optJ decimalJ m), (asc "to", optJ .str t)]) =
      some (b, m, t) :=
  bsome (structOf_obj rfl) (bsome (optl_eq rfl (opt_decimal hb)) (bsome (optl_eq rfl (opt_decimal hm)) (bsome (optl_eq rfl (opt_str t)) rfl)))

theorem operationsFields_J {ops : List SwapOp} {m : Option Nat} {t : Option Str} (hm : ∀ n, m = some n → n < B128) :
    operationsFields (obj [(asc "operations", vecJ opJ ops), (asc "minimum_receive", optJ u128J m), (asc "to", optJ .str t)]) =
      some (ops, m, t) :=
  bsome (structOf_obj rfl) (bsome (reqd_eq rfl (asVec_vecJ ops fun o _ => asOp_opJ o))
    (bsome (optl_eq rfl (opt_u128 hm)) (bsome (optl_eq rfl (opt_str t)) rfl)))

theorem asBinary_payloadJ (h : HookMsg) : asBinary (payloadJ h) = some (writeHook h) := fromBase64_toBase64 _

/-- A payload that says what it is: its numbers fit, and bytes are only bytes when neither the pair nor the router can read them. -/
def HookMsg.Plain : HookMsg → Prop
  | .raw b => readPairHook b = none ∧ readRouterHook b = none
  | h => h.inRange = true

theorem optLt_iff {b : Nat} {o : Option Nat} : optLt b o = true ↔ ∀ n, o = some n → n < b := by
  cases o <;> simp [optLt]

theorem readPairHook_write {h : HookMsg} (hh : h.inRange = true) : readPairHook (writeHook h) =
    match h with
    | .swap _ _ _ | .withdrawLiquidity => some h
    | .executeSwapOperations _ _ _ => none
    | .raw b => readPairHook b := by
  cases h with
  | swap b m t =>
    simp only [HookMsg.inRange, Bool.and_eq_true, optLt_iff] at hh
    rw [readPairHook, writeHook, Json.parse_print]
    show asPairHook (swapJ b m t) = some (.swap b m t)
    exact tagged_eq rfl (by exact msome (swapFields_J hh.1 hh.2) rfl)
  | withdrawLiquidity => rw [readPairHook, writeHook, Json.parse_print]; rfl
  | executeSwapOperations ops m t => rw [readPairHook, writeHook, Json.parse_print]; rfl
  | raw b => rfl

theorem readRouterHook_write {h : HookMsg} (hh : h.inRange = true) : readRouterHook (writeHook h) =
    match h with
    | .swap _ _ _ | .withdrawLiquidity => none
    | .executeSwapOperations _ _ _ => some h
    | .raw b => readRouterHook b := by
  cases h with
  | swap b m t => rw [readRouterHook, writeHook, Json.parse_print]; rfl
  | withdrawLiquidity => rw [readRouterHook, writeHook, Json.parse_print]; rfl
  | executeSwapOperations ops m t =>
    simp only [HookMsg.inRange, optLt_iff] at hh
    rw [readRouterHook, writeHook, Json.parse_print]
    show asRouterHook (operationsJ ops m t) = some (.executeSwapOperations ops m t)
    exact tagged_eq rfl (by exact msome (operationsFields_J hh) rfl)
  | raw b => rfl

theorem classifyHook_write {h : HookMsg} (hp : h.Plain) : classifyHook (writeHook h) = h := by
  have hr : h.inRange = true := by cases h <;> first | rfl | exact hp
  unfold classifyHook payloadBy
  simp only [readPairHook_write hr, readRouterHook_write hr]
  cases h with
  | raw b => simp only [hp.1, hp.2]; rfl
  | _ => rfl

end Halo
