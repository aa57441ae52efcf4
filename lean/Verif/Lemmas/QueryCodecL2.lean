import Verif.Lemmas.QueryCodecL
/-! # Answers on the wire, and the byte-level querier -/

namespace Halo
open _root_.Halo.Spec
namespace QueryCodec

/-! ## Answers -/

/-- Two parts, each of which may be refused. -/
theorem bwhen2 {α β : Type} {o : Option α} {g : α → Option β} {p r : Prop} [Decidable p] [Decidable r] {x : α} {y : β}
    (h1 : o = if p then some x else none) (h2 : g x = if r then some y else none) :
    (o >>= g) = if p ∧ r then some y else none := by
  rw [h1]
  by_cases hp : p
  · rw [if_pos hp]
    show g x = _
    rw [h2]
    by_cases hr : r
    · rw [if_pos hr, if_pos ⟨hp, hr⟩]
    · rw [if_neg hr, if_neg fun h => hr h.2]
  · rw [if_neg hp, if_neg fun h => hp h.1]; rfl

/-- A last part that may be refused. -/
theorem blast {α β : Type} {o : Option α} {g : α → Option β} {p : Prop} [Decidable p] {x : α} {y : β}
    (h1 : o = if p then some x else none) (h2 : g x = some y) : (o >>= g) = if p then some y else none := bwhen h1 fun _ => h2

theorem asNum_J (b n : Nat) : asNum b (.num n) = if n < b then some n else none := rfl

theorem asBalance_J (n : Nat) : asBalance (balanceJ n) = if n < B128 then some n else none :=
  bthen (structOf_obj rfl) ((reqd_at rfl).trans (asU128_J n))

theorem asAmount_J (n : Nat) : asAmount (amountJ n) = if n < B128 then some n else none :=
  bthen (structOf_obj rfl) ((reqd_at rfl).trans (asU128_J n))

theorem asDecimals_J (n : Nat) : asDecimals (decimalsJ n) = if n < 256 then some n else none :=
  bthen (structOf_obj rfl) ((reqd_at rfl).trans (asNum_J 256 n))

theorem asTokenInfo_J (t : TokenInfoResp) :
    asTokenInfo (tokenInfoJ t) = if t.decimals < 256 ∧ t.totalSupply < B128 then some t else none :=
  bthen (structOf_obj rfl) (bthen (reqd_eq (j := .str t.name) rfl rfl) (bthen (reqd_eq (j := .str t.symbol) rfl rfl)
    (bwhen2 ((reqd_at rfl).trans (asNum_J 256 _)) (blast ((reqd_at rfl).trans (asU128_J _)) rfl))))

theorem asRequirements_W (r : Requirements) :
    asRequirements (requirementsJ r) = if r.firstAssetMinimum < B128 ∧ r.secondAssetMinimum < B128 then some r else none :=
  bthen (structOf_obj rfl) (bthen (reqd_eq rfl (asVec_vecJ _ fun _ _ => rfl))
    (bwhen2 ((reqd_at rfl).trans (asU128_J _)) (blast ((reqd_at rfl).trans (asU128_J _)) rfl)))

theorem asTwoNum_J (p : Nat × Nat) (b : Nat) : asTwo (asNum b) (twoJ .num p) = if p.1 < b ∧ p.2 < b then some p else none :=
  bwhen2 (o := asNum b (.num p.1)) (g := fun x => (asNum b (.num p.2)).bind fun y => some (x, y)) (asNum_J b _)
    (blast (o := asNum b (.num p.2)) (g := fun y => some (p.1, y)) (asNum_J b _) rfl)

theorem asPairInfo_J (p : PairInfo) : asPairInfo (pairInfoJ p) =
    if (p.assetDecimals.1 < 256 ∧ p.assetDecimals.2 < 256) ∧ p.requirements.firstAssetMinimum < B128 ∧ p.requirements.secondAssetMinimum < B128
    then some p else none :=
  bthen (structOf_obj rfl) (bthen (reqd_eq rfl (asTwo_twoJ _ (asInfo_infoJ _) (asInfo_infoJ _)))
    (bthen (reqd_eq (j := .str p.contractAddr) rfl rfl) (bthen (reqd_eq (j := .str p.liquidityToken) rfl rfl)
      (bwhen2 ((reqd_at rfl).trans (asTwoNum_J p.assetDecimals 256)) (blast ((reqd_at rfl).trans (asRequirements_W _)) rfl)))))

theorem asSimFwd_J (r : SimResp) : asSim (asc "return_amount") (simJ (asc "return_amount") r) =
    if r.amount < B128 ∧ r.spread < B128 ∧ r.commission < B128 then some r else none :=
  bthen (structOf_obj rfl) (bwhen2 ((reqd_at rfl).trans (asU128_J _)) (bwhen2 ((reqd_at rfl).trans (asU128_J _))
    (blast ((reqd_at rfl).trans (asU128_J _)) rfl)))

theorem asSimRev_J (r : SimResp) : asSim (asc "offer_amount") (simJ (asc "offer_amount") r) =
    if r.amount < B128 ∧ r.spread < B128 ∧ r.commission < B128 then some r else none :=
  bthen (structOf_obj rfl) (bwhen2 ((reqd_at rfl).trans (asU128_J _)) (bwhen2 ((reqd_at rfl).trans (asU128_J _))
    (blast ((reqd_at rfl).trans (asU128_J _)) rfl)))

theorem asPool_J (p : PoolResp) (h1 : p.assets.1.amount < B128) (h2 : p.assets.2.amount < B128) (h3 : p.totalShare < B128) :
    asPool (poolJ p) = some p :=
  bsome (structOf_obj rfl) (bsome (reqd_eq rfl (asTwo_twoJ _ (asAsset_assetJ _ h1) (asAsset_assetJ _ h2)))
    (bsome (reqd_eq rfl (asU128_u128J h3)) rfl))

theorem asConfig_J (c : Addr × Nat × Nat) (h1 : c.2.1 < B64) (h2 : c.2.2 < B64) : asConfig (configJ c) = some c :=
  bsome (structOf_obj rfl) (bsome (reqd_eq (j := .str c.1) rfl rfl) (bsome (reqd_eq rfl (asNum_num h1)) (bsome (reqd_eq rfl (asNum_num h2)) rfl)))

theorem asRouterConfig_J (f : Str) : asRouterConfig (routerConfigJ f) = some f := rfl

theorem asPairs_J (l : List PairInfo) (h : ∀ p ∈ l, (p.assetDecimals.1 < 256 ∧ p.assetDecimals.2 < 256) ∧
    p.requirements.firstAssetMinimum < B128 ∧ p.requirements.secondAssetMinimum < B128) : asPairs (pairsJ l) = some l :=
  bsome (structOf_obj rfl) (reqd_eq rfl (asVec_vecJ l fun p hp => (asPairInfo_J p).trans (if_pos (h p hp))))

theorem asAccounts_J (l : List Str) : asAccounts (accountsJ l) = some l :=
  bsome (structOf_obj rfl) (reqd_eq rfl (asVec_vecJ l fun _ _ => rfl))

theorem asAllowance_J (a : Allowance) (h1 : a.amount < B128) (h2 : a.expires.fits) : asAllowanceA (allowanceJ a) = some a :=
  bsome (structOf_obj rfl) (bsome (reqd_eq rfl (asU128_u128J h1)) (bsome (reqd_eq rfl (asExpiration_J _ h2)) rfl))

theorem asGrantsBySpender_J (l : List (Str × Allowance)) (h : ∀ e ∈ l, e.2.amount < B128 ∧ e.2.expires.fits) :
    asGrants (asc "spender") (grantsJ (asc "spender") l) = some l :=
  bsome (structOf_obj rfl) (reqd_eq rfl (asVec_vecJ l fun e he => bsome (structOf_obj rfl) (bsome (reqd_eq (j := .str e.1) rfl rfl)
    (bsome (reqd_eq rfl (asU128_u128J (h e he).1)) (bsome (reqd_eq rfl (asExpiration_J _ (h e he).2)) rfl)))))

theorem asGrantsByOwner_J (l : List (Str × Allowance)) (h : ∀ e ∈ l, e.2.amount < B128 ∧ e.2.expires.fits) :
    asGrants (asc "owner") (grantsJ (asc "owner") l) = some l :=
  bsome (structOf_obj rfl) (reqd_eq rfl (asVec_vecJ l fun e he => bsome (structOf_obj rfl) (bsome (reqd_eq (j := .str e.1) rfl rfl)
    (bsome (reqd_eq rfl (asU128_u128J (h e he).1)) (bsome (reqd_eq rfl (asExpiration_J _ (h e he).2)) rfl)))))

theorem asMinterOpt_J (o : Option MinterData) (h : ∀ m n, o = some m → m.cap = some n → n < B128) : asMinterOpt (minterOptJ o) = some o := by
  cases o with
  | none => rfl
  | some m =>
    show (nullable asMinter (minterJ ⟨m.minter, m.cap⟩)).map _ = _
    rw [show nullable asMinter (minterJ ⟨m.minter, m.cap⟩) = (asMinter (minterJ ⟨m.minter, m.cap⟩)).map some from rfl,
      asMinter_J ⟨m.minter, m.cap⟩ fun n hn => h m n rfl hn]
    rfl

/-! ## Asking -/

theorem ask_ok {α : Type} {k : Kind} {m : QueryMsg} (ha : Asks k m) (hf : FitsAll (queryNumbers m)) (f : QueryMsg → R Json)
    (rd : Json → Option α) :
    (answerBytes k f (writeQuery m) >>= fun b => okOr ((Json.parse b).bind rd) .parse) = f m >>= fun j => okOr (rd j) .parse := by
  unfold answerBytes
  rw [read_some ha hf]
  show (f m >>= fun j => pure j.print) >>= _ = _
  cases f m with
  | error e => rfl
  | ok j =>
    show okOr ((Json.parse j.print).bind rd) .parse = okOr (rd j) .parse
    rw [Json.parse_print]; rfl

theorem ask_refused {α : Type} {k : Kind} {m : QueryMsg} (h : ¬ (Asks k m ∧ FitsAll (queryNumbers m))) (f : QueryMsg → R Json)
    (rd : Json → Option α) :
    (answerBytes k f (writeQuery m) >>= fun b => okOr ((Json.parse b).bind rd) .parse) = .error .parse := by
  unfold answerBytes
  rw [read_refused h]
  rfl

/-- Third-party contracts answer with what can be read of their bytes. -/
theorem ask_foreign {α : Type} (foreign : Str → Bytes → R Bytes) (a : Str) (m : QueryMsg) (rd : Json → Option α) :
    (foreign a (writeQuery m) >>= fun b => okOr ((Json.parse b).bind rd) .parse) = ask foreign a m rd := rfl

theorem okOr_when {α : Type} {p : Prop} [Decidable p] {x : α} {o : Option α} (h : o = if p then some x else none) :
    okOr o .parse = (require p .parse >>= fun _ => pure x) := by
  rw [h]; unfold require; split <;> rfl

/-- A value that was read is in range, so checking it again changes nothing. -/
theorem recheck {α : Type} {p : α → Prop} [DecidablePred p] (r : R α) (h : ∀ x, r = .ok x → p x) :
    (r >>= fun x => require (p x) .parse >>= fun _ => pure x) = r := by
  cases r with
  | error e => rfl
  | ok x =>
    show (require (p x) .parse >>= fun _ => pure x) = _
    unfold require
    rw [if_pos (h x rfl)]; rfl

theorem ask_inv {α : Type} {smart : Str → Bytes → R Bytes} {a : Str} {m : QueryMsg} {rd : Json → Option α} {x : α}
    (h : ask smart a m rd = .ok x) : ∃ j, rd j = some x := by
  unfold ask at h
  obtain ⟨b, _, hb⟩ := bind_eq_ok.mp h
  rw [okOr_eq_ok] at hb
  obtain ⟨j, _, hj⟩ := Option.bind_eq_some_iff.mp hb
  exact ⟨j, hj⟩

theorem oneOf_inv {α : Type} {k : Str} {f : Json → Option α} {j : Json} {x : α} (h : oneOf k f j = some x) : ∃ j, f j = some x := by
  obtain ⟨m, _, hm⟩ := Option.bind_eq_some_iff.mp h
  exact reqd_inv hm

theorem asTokenInfo_lt {j : Json} {t : TokenInfoResp} (h : asTokenInfo j = some t) : t.totalSupply < B128 ∧ t.decimals < 256 := by
  obtain ⟨m, _, h⟩ := Option.bind_eq_some_iff.mp h
  obtain ⟨_, _, h⟩ := Option.bind_eq_some_iff.mp h
  obtain ⟨_, _, h⟩ := Option.bind_eq_some_iff.mp h
  obtain ⟨_, hd, h⟩ := Option.bind_eq_some_iff.mp h
  obtain ⟨_, ht, h⟩ := Option.bind_eq_some_iff.mp h
  cases h
  obtain ⟨_, hd⟩ := reqd_inv hd
  obtain ⟨_, ht⟩ := reqd_inv ht
  exact ⟨asU128_lt ht, asNum_lt hd⟩

theorem asPairInfo_lt {j : Json} {t : PairInfo} (h : asPairInfo j = some t) :
    t.assetDecimals.1 < 256 ∧ t.assetDecimals.2 < 256 ∧ t.requirements.inRange = true := by
  obtain ⟨m, _, h⟩ := Option.bind_eq_some_iff.mp h
  obtain ⟨_, _, h⟩ := Option.bind_eq_some_iff.mp h
  obtain ⟨_, _, h⟩ := Option.bind_eq_some_iff.mp h
  obtain ⟨_, _, h⟩ := Option.bind_eq_some_iff.mp h
  obtain ⟨_, hd, h⟩ := Option.bind_eq_some_iff.mp h
  obtain ⟨_, ht, h⟩ := Option.bind_eq_some_iff.mp h
  cases h
  obtain ⟨_, hd⟩ := reqd_inv hd
  obtain ⟨_, ht⟩ := reqd_inv ht
  obtain ⟨⟨_, h1⟩, ⟨_, h2⟩⟩ := asTwo_inv hd
  have := asRequirements_lt ht
  exact ⟨asNum_lt h1, asNum_lt h2, by simpa [Requirements.inRange] using this⟩

theorem asSim_lt {k : Str} {j : Json} {r : SimResp} (h : asSim k j = some r) : r.amount < B128 ∧ r.spread < B128 ∧ r.commission < B128 := by
  obtain ⟨m, _, h⟩ := Option.bind_eq_some_iff.mp h
  obtain ⟨_, h1, h⟩ := Option.bind_eq_some_iff.mp h
  obtain ⟨_, h2, h⟩ := Option.bind_eq_some_iff.mp h
  obtain ⟨_, h3, h⟩ := Option.bind_eq_some_iff.mp h
  cases h
  obtain ⟨_, h1⟩ := reqd_inv h1
  obtain ⟨_, h2⟩ := reqd_inv h2
  obtain ⟨_, h3⟩ := reqd_inv h3
  exact ⟨asU128_lt h1, asU128_lt h2, asU128_lt h3⟩

section
variable (c : Chain) (foreign : Str → Bytes → R Bytes) (w : World)

theorem smart_unfold (n : Nat) (a : Str) (b : Bytes) : smart c foreign w n a b = (lookState c w a >>= fun s => match s with
    | .token s => answerBytes .token (Token.answer c.api s) b
    | .pair s => answerBytes .pair (Pair.answer c.api (match n with | 0 => noQuerier | n + 1 => byteQuerier (bankAnswer w) (smart c foreign w n)) s) b
    | .factory s => answerBytes .factory (Factory.answer c.api s) b
    | .router s => answerBytes .router (Router.answer c.api (match n with | 0 => noQuerier | n + 1 => byteQuerier (bankAnswer w) (smart c foreign w n)) s) b
    | .other => foreign a b) := by
  cases n <;> (unfold smart; rfl)

theorem wire_tokenBalance (n : Nat) : (wireQuerier c foreign w n).tokenBalance = (querier c (heardQuerier foreign) w).tokenBalance := by
  funext t a
  show (smart c foreign w n t (writeQuery (.balance a)) >>= fun b => okOr ((Json.parse b).bind asBalance) .parse) = _
  rw [smart_unfold]
  show _ = (lookState c w t >>= fun s => match s with
    | .token s => chk128 (Token.queryBalance c.api s a)
    | .other => chk128 ((heardQuerier foreign).tokenBalance t a)
    | _ => .error .parse)
  cases lookState c w t with
  | error e => rfl
  | ok s =>
    cases s with
    | token s =>
      refine (ask_ok (k := .token) (m := (.balance a)) trivial (fitsNone rfl) _ _).trans ?_
      show ((Token.queryBalance c.api s a >>= fun n => pure (balanceJ n)) >>= _) = chk128 (Token.queryBalance c.api s a)
      cases Token.queryBalance c.api s a with
      | error e => rfl
      | ok n => exact okOr_when (asBalance_J n)
    | pair s => exact ask_refused (k := .pair) (m := (.balance a)) (fun h => h.1) _ _
    | factory s => exact ask_refused (k := .factory) (m := (.balance a)) (fun h => h.1) _ _
    | router s => exact ask_refused (k := .router) (m := (.balance a)) (fun h => h.1) _ _
    | other => exact (recheck _ fun x h => by obtain ⟨j, hj⟩ := ask_inv h; obtain ⟨_, h⟩ := oneOf_inv hj; exact asU128_lt h).symm

theorem wire_tokenInfo (n : Nat) : (wireQuerier c foreign w n).tokenInfo = (querier c (heardQuerier foreign) w).tokenInfo := by
  funext t
  show (smart c foreign w n t (writeQuery .tokenInfo) >>= fun b => okOr ((Json.parse b).bind asTokenInfo) .parse) = _
  rw [smart_unfold]
  show _ = (lookState c w t >>= fun s => match s with
    | .token s => chkTI (.ok (Token.queryTokenInfo s))
    | .other => chkTI ((heardQuerier foreign).tokenInfo t)
    | _ => .error .parse)
  cases lookState c w t with
  | error e => rfl
  | ok s =>
    cases s with
    | token s =>
      refine (ask_ok (k := .token) (m := .tokenInfo) trivial (fitsNone rfl) (Token.answer c.api s) asTokenInfo).trans ?_
      exact okOr_when ((asTokenInfo_J _).trans (if_congr and_comm rfl rfl))
    | pair s => rfl
    | factory s => rfl
    | router s => rfl
    | other => exact (recheck _ fun x h => by obtain ⟨j, hj⟩ := ask_inv h; exact asTokenInfo_lt hj).symm

theorem wire_nativeDecimals (n : Nat) : (wireQuerier c foreign w n).nativeDecimals = (querier c (heardQuerier foreign) w).nativeDecimals := by
  funext t d
  show (smart c foreign w n t (writeQuery (.nativeTokenDecimals d)) >>= fun b => okOr ((Json.parse b).bind asDecimals) .parse) = _
  rw [smart_unfold]
  show _ = (lookState c w t >>= fun s => match s with
    | .factory s => chk8 (Factory.queryNativeTokenDecimals s d)
    | .other => chk8 ((heardQuerier foreign).nativeDecimals t d)
    | _ => .error .parse)
  cases lookState c w t with
  | error e => rfl
  | ok s =>
    cases s with
    | factory s =>
      refine (ask_ok (k := .factory) (m := (.nativeTokenDecimals d)) trivial (fitsNone rfl) _ _).trans ?_
      show ((Factory.queryNativeTokenDecimals s d >>= fun n => pure (decimalsJ n)) >>= _) = chk8 (Factory.queryNativeTokenDecimals s d)
      cases Factory.queryNativeTokenDecimals s d with
      | error e => rfl
      | ok n => exact okOr_when (asDecimals_J n)
    | pair s => exact ask_refused (k := .pair) (m := (.nativeTokenDecimals d)) (fun h => h.1) _ _
    | token s => exact ask_refused (k := .token) (m := (.nativeTokenDecimals d)) (fun h => h.1) _ _
    | router s => exact ask_refused (k := .router) (m := (.nativeTokenDecimals d)) (fun h => h.1) _ _
    | other => exact (recheck _ fun x h => by obtain ⟨j, hj⟩ := ask_inv h; obtain ⟨_, h⟩ := oneOf_inv hj; exact asNum_lt h).symm

theorem okOr_pairInfo (p : PairInfo) : okOr (asPairInfo (pairInfoJ p)) .parse = chkPI (.ok p) :=
  okOr_when ((asPairInfo_J p).trans (if_congr (by simp [Requirements.inRange, and_assoc]) rfl rfl))

theorem wire_pairInfo (n : Nat) : (wireQuerier c foreign w n).pairInfo = (querier c (heardQuerier foreign) w).pairInfo := by
  funext t d
  show (smart c foreign w n t (writeQuery (.pairOf d)) >>= fun b => okOr ((Json.parse b).bind asPairInfo) .parse) = _
  rw [smart_unfold]
  show _ = (lookState c w t >>= fun s => match s with
    | .factory s => chkPI (Factory.queryPair c.api s d)
    | .other => chkPI ((heardQuerier foreign).pairInfo t d)
    | _ => .error .parse)
  cases lookState c w t with
  | error e => rfl
  | ok s =>
    cases s with
    | factory s =>
      refine (ask_ok (k := .factory) (m := (.pairOf d)) trivial (fitsNone rfl) _ _).trans ?_
      show ((Factory.queryPair c.api s d >>= fun n => pure (pairInfoJ n)) >>= _) = chkPI (Factory.queryPair c.api s d)
      cases Factory.queryPair c.api s d with
      | error e => rfl
      | ok n => exact okOr_pairInfo n
    | pair s => exact ask_refused (k := .pair) (m := (.pairOf d)) (fun h => h.1) _ _
    | token s => exact ask_refused (k := .token) (m := (.pairOf d)) (fun h => h.1) _ _
    | router s => exact ask_refused (k := .router) (m := (.pairOf d)) (fun h => h.1) _ _
    | other => exact (recheck _ fun x h => by obtain ⟨j, hj⟩ := ask_inv h; exact asPairInfo_lt hj).symm

theorem wire_pairInfoFromPair (n : Nat) :
    (wireQuerier c foreign w n).pairInfoFromPair = (querier c (heardQuerier foreign) w).pairInfoFromPair := by
  funext t
  show (smart c foreign w n t (writeQuery .pair) >>= fun b => okOr ((Json.parse b).bind asPairInfo) .parse) = _
  rw [smart_unfold]
  show _ = (lookState c w t >>= fun s => match s with
    | .pair s => chkPI (Pair.queryPairInfo c.api s)
    | .other => chkPI ((heardQuerier foreign).pairInfoFromPair t)
    | _ => .error .parse)
  cases lookState c w t with
  | error e => rfl
  | ok s =>
    cases s with
    | pair s =>
      refine (ask_ok (k := .pair) (m := .pair) trivial (fitsNone rfl) _ _).trans ?_
      show ((Pair.queryPairInfo c.api s >>= fun n => pure (pairInfoJ n)) >>= _) = chkPI (Pair.queryPairInfo c.api s)
      cases Pair.queryPairInfo c.api s with
      | error e => rfl
      | ok n => exact okOr_pairInfo n
    | factory s => rfl
    | token s => rfl
    | router s => rfl
    | other => exact (recheck _ fun x h => by obtain ⟨j, hj⟩ := ask_inv h; exact asPairInfo_lt hj).symm

end

end QueryCodec
end Halo
