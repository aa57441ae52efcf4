import Verif.Lemmas.StoreTokenL2
import Verif.Lemmas.RouterL
import Verif.Lemmas.ReplyL
/-! # halo-pair, halo-factory and halo-router over raw storage -/

namespace Halo
namespace StoreL
open Codec QueryCodec
open _root_.Halo.Spec

variable {L : Prop}

/-! ## Stored values are read back -/

theorem asBinary_J (b : Bytes) : asBinary (canonJ b) = some b := fromBase64_toBase64 b

theorem asRawInfo_J (i : AssetInfoRaw) : asRawInfo (rawInfoJ i) = some i := by
  cases i with
  | token a =>
    refine (tagged_variant _ _ _).trans ?_
    show ((structOf [asc "contract_addr"] (obj [(asc "contract_addr", canonJ a)])).bind fun m => (reqd asBinary (asc "contract_addr") m).map AssetInfoRaw.token) = _
    exact bsome (structOf_obj rfl) (msome (reqd_eq rfl (asBinary_J a)) rfl)
  | native d =>
    refine (tagged_variant _ _ _).trans ?_
    show ((structOf [asc "denom"] (obj [(asc "denom", .str d)])).bind fun m => (reqd asStr (asc "denom") m).map AssetInfoRaw.native) = _
    exact bsome (structOf_obj rfl) (msome (reqd_eq (j := .str d) rfl rfl) rfl)

theorem asPairRaw_J {p : PairInfoRaw} (h : FitsAll (pairNumbers p)) : asPairRaw (pairRawJ p) = some p := by
  have h1 : p.assetDecimals.1 < 256 := h (8, _) (by simp [pairNumbers])
  have h2 : p.assetDecimals.2 < 256 := h (8, _) (by simp [pairNumbers])
  have h3 : p.requirements.firstAssetMinimum < B128 := h (128, _) (by simp [pairNumbers, reqNumbers])
  have h4 : p.requirements.secondAssetMinimum < B128 := h (128, _) (by simp [pairNumbers, reqNumbers])
  exact bsome (structOf_obj rfl) (bsome (reqd_eq rfl (asTwo_twoJ _ (asRawInfo_J _) (asRawInfo_J _))) (bsome (reqd_eq rfl (asBinary_J _))
    (bsome (reqd_eq rfl (asBinary_J _)) (bsome (reqd_eq rfl (asTwo_twoJ _ (asNum_num h1) (asNum_num h2)))
      (bsome (reqd_eq rfl (asRequirements_J _ h3 h4)) rfl)))))

theorem asOwnConfig_J {c : Factory.Config} (h1 : c.pairCodeId < B64) (h2 : c.tokenCodeId < B64) : asOwnConfig (ownConfigJ c) = some c :=
  bsome (structOf_obj rfl) (bsome (reqd_eq rfl (asBinary_J _)) (bsome (reqd_eq rfl (asNum_num h1)) (bsome (reqd_eq rfl (asNum_num h2)) rfl)))

theorem asBytes_J (b : Bytes) : asBytes (bytesJ b) = some b :=
  asVec_vecJ b fun x _ => by
    show (asNum 256 (.num x.toNat)).map UInt8.ofNat = some x
    rw [asNum_num x.toNat_lt]
    simp

theorem asTmp_J {t : Factory.Tmp} (h1 : t.assetDecimals.1 < 256) (h2 : t.assetDecimals.2 < 256) : asTmp (tmpJ t) = some t :=
  bsome (structOf_obj rfl) (bsome (reqd_eq rfl (asBytes_J _)) (bsome (reqd_eq rfl (asTwo_twoJ _ (asRawInfo_J _) (asRawInfo_J _)))
    (bsome (reqd_eq rfl (asTwo_twoJ _ (asNum_num h1) (asNum_num h2))) rfl)))

theorem asRouterState_J (s : Router.State) : asRouterState (routerStateJ s) = some s :=
  msome (bsome (structOf_obj rfl) (reqd_eq rfl (asBinary_J _))) rfl

/-! ## Layouts -/

/-- The version, and one item. -/
def oneItem (name key : Bytes) (j : Json) : Slot → Option Bytes
  | .item ns => if ns = key then some j.print else if ns = asc "contract_info" then some (versionJ name (asc "0.1.0")).print else none
  | _ => none

/-- The storage of a pair. -/
def pairVal (s : Pair.State) : Slot → Option Bytes := oneItem Pair.contractName Pair.infoKey (pairRawJ s)

/-- The storage of a router. -/
def routerVal (s : Router.State) : Slot → Option Bytes := oneItem Router.contractName Router.configKey (routerStateJ s)

/-- The storage of a factory. -/
def factoryVal (s : Factory.State) : Slot → Option Bytes
  | .item ns =>
    if ns = Factory.configKey then some (ownConfigJ s.config).print
    else if ns = Factory.tmpKey then s.tmp.map fun t => (tmpJ t).print
    else if ns = asc "contract_info" then some (versionJ Factory.contractName (asc "0.1.0")).print else none
  | .entry ns k =>
    if ns = asc "pair_info" then (AMap.get s.pairs k).map fun p => (pairRawJ p).print
    else if ns = asc "allow_native_token" then (s.allow.get k).map fun n => (Json.num n).print else none
  | .entry2 _ _ _ => none

theorem pairInfo_ok : (Slot.item Pair.infoKey).ok := ⟨_, _, rfl, by decide⟩
theorem config_ok : (Slot.item Factory.configKey).ok := ⟨_, _, rfl, by decide⟩
theorem tmp_ok : (Slot.item Factory.tmpKey).ok := ⟨_, _, rfl, by decide⟩
theorem pairs_ok (k : Bytes) : (Slot.entry (asc "pair_info") k).ok := ⟨by decide, by rintro (h | h) <;> exact absurd h (by decide)⟩
theorem allowed_ok (k : Bytes) : (Slot.entry (asc "allow_native_token") k).ok := ⟨by decide, by rintro (h | h) <;> exact absurd h (by decide)⟩

theorem oneItem_new {name key : Bytes} (hk : (Slot.item key).ok) (j : Json) :
    Holds (saveAt (setVersion [] name) key j) (oneItem name key j) := by
  refine ((Holds.nil.set (V' := fun t => if t = .item (asc "contract_info") then some (versionJ name (asc "0.1.0")).print else none)
    version_ok fun t => rfl).set hk fun t => ?_)
  cases t with
  | item ns =>
    by_cases e : ns = key
    · simp [oneItem, e]
    · simp [oneItem, e]
  | _ => simp [oneItem]

theorem oneItem_save {name key : Bytes} (hk : (Slot.item key).ok) {j : Json} {σ : Store} (h : Holds σ (oneItem name key j)) (j' : Json) :
    Holds (saveAt σ key j') (oneItem name key j') := by
  refine h.set hk fun t => ?_
  cases t with
  | item ns =>
    by_cases e : ns = key
    · simp [oneItem, e]
    · simp [oneItem, e]
  | _ => simp [oneItem]

theorem oneItem_version {name key : Bytes} (hne : key ≠ asc "contract_info") {j : Json} {σ : Store} (h : Holds σ (oneItem name key j)) :
    Holds (setVersion σ name) (oneItem name key j) := by
  refine h.set version_ok fun t => ?_
  cases t with
  | item ns =>
    by_cases e : ns = asc "contract_info"
    · subst e; simp [oneItem, Ne.symm hne]
    · simp [e]
  | _ => simp

/-! ## halo-pair -/

section
variable {σ : Store} {s : Pair.State}

theorem pair_load (h : Holds σ (pairVal s)) (hf : FitsAll (pairNumbers s)) : loadAt asPairRaw σ Pair.infoKey = .ok s :=
  load_some h pairInfo_ok (by simp [pairVal, oneItem]) (asPairRaw_J hf)

theorem pair_inst_sim (api : Api) (self : Addr) (m : Pair.Inst) :
    Sim L (Same fun σ s => Holds σ (pairVal s)) (Pair.instantiateS api self m) (Pair.instantiate api self m) := by
  unfold Pair.instantiateS
  cases Pair.instantiate api self m with
  | error e => exact .error e
  | ok x => exact .ok ⟨oneItem_new pairInfo_ok _, rfl⟩

theorem pair_execute_sim (h : Holds σ (pairVal s)) (hf : FitsAll (pairNumbers s)) (api : Api) (q : Querier) (self u : Addr) (fs : List Coin) (m : ExecMsg) :
    Sim L (Same fun σ s => Holds σ (pairVal s)) (Pair.executeS api q self σ u fs m) (Pair.execute api q self s u fs m) := by
  unfold Pair.executeS
  rw [pair_load h hf]
  show Sim L _ (Pair.execute api q self s u fs m >>= _) _
  cases hx : Pair.execute api q self s u fs m with
  | error e => exact .error e
  | ok x =>
    obtain ⟨s', r⟩ := x
    have : s' = s := (Pair.execute_out hx).1
    subst this
    exact .ok ⟨h, rfl⟩

theorem pair_reply_sim (h : Holds σ (pairVal s)) (hf : FitsAll (pairNumbers s)) (api : Api) {o : Option Addr} {data : Option Bytes}
    (hp : parseReply data = o ∨ L ∧ parseReply data = none) :
    Sim L (Same fun σ s => Holds σ (pairVal s)) (Pair.replyS api σ data) (Pair.reply api s o) := by
  unfold Pair.replyS Pair.reply
  rcases hp with hp | ⟨hl, hp⟩
  · subst hp
    refine Sim.same fun lt _ => ?_
    rw [pair_load h hf]
    exact Sim.same fun c _ => .ok ⟨oneItem_save pairInfo_ok h _, rfl⟩
  · rw [hp]
    exact .long hl .unwrap _

theorem pair_answer_eq (h : Holds σ (pairVal s)) (hf : FitsAll (pairNumbers s)) (api : Api) (q : Querier) (m : QueryMsg) :
    Pair.answerS api q σ m = Pair.answer api q s m := by
  unfold Pair.answerS
  rw [pair_load h hf]; rfl

end

/-! ## halo-router -/

section
variable {σ : Store} {s : Router.State}

theorem router_load (h : Holds σ (routerVal s)) : loadAt asRouterState σ Router.configKey = .ok s :=
  load_some h config_ok (by simp [routerVal, oneItem, Router.configKey, Factory.configKey]) (asRouterState_J s)

theorem router_inst_sim (api : Api) (f : Str) :
    Sim L (Same fun σ s => Holds σ (routerVal s)) (Router.instantiateS api f) (Router.instantiate api f) :=
  Sim.same fun _ _ => .ok ⟨oneItem_new config_ok _, rfl⟩

theorem router_execute_sim (h : Holds σ (routerVal s)) (api : Api) (q : Querier) (self u : Addr) (m : ExecMsg) :
    Sim L (Same fun σ s => Holds σ (routerVal s)) (Router.executeS api q self σ u m) (Router.execute api q self s u m) := by
  unfold Router.executeS
  rw [router_load h]
  show Sim L _ (Router.execute api q self s u m >>= _) _
  cases hx : Router.execute api q self s u m with
  | error e => exact .error e
  | ok x =>
    obtain ⟨s', r⟩ := x
    have : s' = s := Router.execute_state hx
    subst this
    exact .ok ⟨h, rfl⟩

theorem router_answer_eq (h : Holds σ (routerVal s)) (api : Api) (q : Querier) (m : QueryMsg) :
    Router.answerS api q σ m = Router.answer api q s m := by
  unfold Router.answerS
  rw [router_load h]; rfl

end

/-! ## halo-factory -/

/-- A store that represents a factory. -/
structure FacRep (σ : Store) (s : Factory.State) : Prop where
  holds : Holds σ (factoryVal s)
  sorted : SortedKeys s.pairs

section
variable {σ : Store} {s : Factory.State}

theorem factory_new (name : Bytes) (hn : name = Factory.contractName) (c : Factory.Config) :
    FacRep (saveAt (setVersion [] name) Factory.configKey (ownConfigJ c)) { config := c, tmp := none, pairs := [], allow := [] } := by
  subst hn
  refine ⟨(Holds.nil.set (V' := fun t => if t = .item (asc "contract_info") then some (versionJ Factory.contractName (asc "0.1.0")).print else none)
    version_ok fun t => rfl).set config_ok fun t => ?_, List.Pairwise.nil⟩
  cases t with
  | item ns =>
    have ne : Factory.tmpKey ≠ asc "contract_info" := by decide
    by_cases e : ns = Factory.configKey
    · simp [factoryVal, e]
    · simp only [factoryVal, Slot.item.injEq, e, if_false, Option.map_none]
      by_cases e' : ns = Factory.tmpKey
      · subst e'; simp [ne]
      · simp [e']
  | entry ns k => simp [factoryVal]
  | entry2 ns a b => simp [factoryVal]

theorem FacRep.setConfig (h : FacRep σ s) (c : Factory.Config) : FacRep (saveAt σ Factory.configKey (ownConfigJ c)) { s with config := c } := by
  refine ⟨h.holds.set config_ok fun t => ?_, h.sorted⟩
  cases t with
  | item ns => by_cases e : ns = Factory.configKey <;> simp [factoryVal, e]
  | entry ns k => simp [factoryVal]
  | entry2 ns a b => simp [factoryVal]

theorem FacRep.setTmp (h : FacRep σ s) (t : Factory.Tmp) : FacRep (saveAt σ Factory.tmpKey (tmpJ t)) { s with tmp := some t } := by
  refine ⟨h.holds.set tmp_ok fun t => ?_, h.sorted⟩
  have ne : Factory.tmpKey ≠ Factory.configKey := by decide
  cases t with
  | item ns =>
    by_cases e : ns = Factory.tmpKey
    · subst e; simp [factoryVal, ne]
    · simp [factoryVal, e]
  | entry ns k => simp [factoryVal]
  | entry2 ns a b => simp [factoryVal]

theorem FacRep.setAllow (h : FacRep σ s) (d : Str) (n : Nat) : FacRep (saveAt σ (Factory.allowKey d) (.num n)) { s with allow := s.allow.set d n } := by
  refine ⟨h.holds.set (allowed_ok d) fun t => ?_, h.sorted⟩
  have ne : asc "allow_native_token" ≠ asc "pair_info" := by decide
  cases t with
  | item ns => simp [factoryVal]
  | entry ns k =>
    by_cases e : ns = asc "allow_native_token"
    · subst e
      simp only [factoryVal, ne, if_true, if_false, AMap.get_set, Slot.entry.injEq, true_and]
      split <;> rfl
    · simp [factoryVal, e]
  | entry2 ns a b => simp [factoryVal]

theorem FacRep.setPair (h : FacRep σ s) (k : Bytes) (p : PairInfoRaw) :
    FacRep (saveAt σ (Factory.pairsKey k) (pairRawJ p)) { s with pairs := smapSet k p s.pairs } := by
  refine ⟨h.holds.set (pairs_ok k) fun t => ?_, h.sorted.smapSet⟩
  cases t with
  | item ns => simp [factoryVal]
  | entry ns k' =>
    by_cases e : ns = asc "pair_info"
    · subst e
      simp only [factoryVal, if_true, get_smapSet h.sorted, Slot.entry.injEq, true_and]
      split <;> rfl
    · simp [factoryVal, e]
  | entry2 ns a b => simp [factoryVal]

theorem FacRep.version (h : FacRep σ s) : FacRep (Factory.migrateS σ) s := by
  refine ⟨h.holds.set version_ok fun t => ?_, h.sorted⟩
  have n1 : asc "contract_info" ≠ Factory.configKey := by decide
  have n2 : asc "contract_info" ≠ Factory.tmpKey := by decide
  cases t with
  | item ns =>
    by_cases e : ns = asc "contract_info"
    · subst e; simp [factoryVal, n1, n2]
    · simp [e]
  | _ => simp

theorem FacRep.config (h : FacRep σ s) (hf : Wire.Fac s) : loadAt asOwnConfig σ Factory.configKey = .ok s.config :=
  load_some h.holds config_ok (by simp [factoryVal]) (asOwnConfig_J hf.pcode hf.tcode)

theorem FacRep.tmp (h : FacRep σ s) (hf : Wire.Fac s) : loadAt asTmp σ Factory.tmpKey = okOr s.tmp .notFound := by
  have ne : Factory.tmpKey ≠ Factory.configKey := by decide
  exact load_at (j := tmpJ) h.holds tmp_ok (by simp [factoryVal, ne]) fun t ht => asTmp_J (hf.tmp t ht).1 (hf.tmp t ht).2

theorem FacRep.mayPair (h : FacRep σ s) (hf : Wire.Fac s) (k : Bytes) : mayLoadAt asPairRaw σ (Factory.pairsKey k) = .ok (AMap.get s.pairs k) :=
  mayLoad_at (j := pairRawJ) h.holds (pairs_ok k) (by simp [factoryVal]) fun _ hp => asPairRaw_J (hf.pairs _ (get_mem hp))

theorem FacRep.allowed (h : FacRep σ s) (hf : Wire.Fac s) (d : Str) :
    loadAt (asNum 256) σ (Factory.allowKey d) = okOr (s.allow.get d) .notFound := by
  have ne : asc "allow_native_token" ≠ asc "pair_info" := by decide
  exact load_at (j := Json.num) h.holds (allowed_ok d) (by simp [factoryVal, ne]) fun _ hn => asNum_num (hf.allow _ (get_mem hn))

theorem factory_inst_sim (api : Api) (u : Addr) (p t : Nat) :
    Sim L (Same FacRep) (Factory.instantiateS api u p t) (Factory.instantiate api u p t) :=
  Sim.same fun _ _ => .ok ⟨factory_new _ rfl _, rfl⟩

theorem owner_eq (api : Api) (u : Addr) : Factory.checkOwnerS api s.config u = Factory.checkOwner api s u := rfl

theorem factory_execute_sim (h : FacRep σ s) (hf : Wire.Fac s) (api : Api) (q : Querier) (self u : Addr) (m : ExecMsg) :
    Sim L (Same FacRep) (Factory.executeS api q self σ u m) (Factory.execute api q self s u m) := by
  cases m with
  | updateConfig o t p =>
    show Sim L _ (Factory.updateConfigS api σ u o t p) (Factory.updateConfig api s u o t p)
    unfold Factory.updateConfigS Factory.updateConfig
    rw [h.config hf]
    simp only [ok_bind, owner_eq]
    exact Sim.same fun _ _ => Sim.same fun _ _ => Sim.ret (h.setConfig _) _
  | createPair is r =>
    show Sim L _ (Factory.createPairS api q self σ is r) (Factory.createPair api q self s is r)
    unfold Factory.createPairS Factory.createPair
    rw [h.config hf]
    simp only [ok_bind]
    refine Sim.same fun _ _ => Sim.same fun d0 _ => Sim.same fun d1 _ => Sim.same fun r0 _ => Sim.same fun r1 _ => ?_
    rw [h.mayPair hf]
    cases hg : AMap.get s.pairs (Factory.pairKey (r0, r1)) with
    | none => exact Sim.ret (h.setTmp _) _
    | some p => exact .error _
  | addNativeTokenDecimals d n =>
    show Sim L _ (Factory.addNativeTokenDecimalsS api q self σ u d n) (Factory.addNativeTokenDecimals api q self s u d n)
    unfold Factory.addNativeTokenDecimalsS Factory.addNativeTokenDecimals
    rw [h.config hf]
    simp only [ok_bind, owner_eq]
    exact Sim.same fun _ _ => Sim.same fun _ _ => Sim.same fun _ _ => Sim.ret (h.setAllow d n) _
  | migratePair k code =>
    show Sim L _ (Factory.migratePairS api σ u k code) (Factory.migratePair api s u k code)
    unfold Factory.migratePairS Factory.migratePair
    rw [h.config hf]
    simp only [ok_bind, owner_eq]
    exact Sim.same fun _ _ => Sim.ret h _
  | _ => exact .error _

theorem factory_reply_sim (h : FacRep σ s) (hf : Wire.Fac s) (api : Api) (q : Querier) {o : Option Addr} {data : Option Bytes}
    (hp : parseReply data = o ∨ L ∧ parseReply data = none) :
    Sim L (Same FacRep) (Factory.replyS api q σ data) (Factory.reply api q s o) := by
  unfold Factory.replyS Factory.reply
  rw [h.tmp hf]
  refine Sim.same fun t _ => ?_
  rcases hp with hp | ⟨hl, hp⟩
  · subst hp
    exact Sim.same fun p _ => Sim.same fun i _ => Sim.same fun lt _ => Sim.same fun ca _ => Sim.ret (h.setPair _ _) _
  · rw [hp]
    exact .long hl .unwrap _

theorem FacRep.mem_pairs (h : FacRep σ s) (k v : Bytes) :
    (lengthed (asc "pair_info") ++ k, v) ∈ σ ↔ ∃ p, (k, p) ∈ s.pairs ∧ (pairRawJ p).print = v := by
  rw [h.holds.mem]
  constructor
  · rintro ⟨t, hv, hk⟩
    have : t = .entry (asc "pair_info") k := Slot.key_inj (h.holds.dom t v hv) (pairs_ok k) hk
    subst this
    simp only [factoryVal, if_true, Option.map_eq_some_iff] at hv
    obtain ⟨n, hn, hv⟩ := hv
    exact ⟨n, get_mem hn, hv⟩
  · rintro ⟨n, hn, rfl⟩
    refine ⟨.entry (asc "pair_info") k, ?_, rfl⟩
    simp only [factoryVal, if_true, h.sorted.get_of_mem hn, Option.map_some]

theorem opens_pairs : Opens (lengthed (asc "pair_info")) := ⟨[0, 9] ++ asc "pair_inf", 111, by decide, by decide⟩

theorem toNormalAll_map (api : Api) : ∀ {l : List (Bytes × PairInfoRaw)}, (∀ e ∈ l, FitsAll (pairNumbers e.2)) →
    (l.map fun e => (e.1, (pairRawJ e.2).print)).mapM (fun e => do
      let v ← okOr ((Json.parse e.2).bind asPairRaw) .parse
      v.toNormal api) = Factory.toNormalAll api l
  | [], _ => rfl
  | (k, p) :: t, h => by
    have ih := toNormalAll_map api (l := t) fun e he => h e (List.mem_cons_of_mem _ he)
    rw [List.map_cons, List.mapM_cons, ih]
    show ((okOr ((Json.parse (pairRawJ p).print).bind asPairRaw) .parse >>= _) >>= _) = _
    rw [Json.parse_print]
    show ((okOr (asPairRaw (pairRawJ p)) .parse >>= _) >>= _) = _
    rw [asPairRaw_J (h (k, p) List.mem_cons_self)]
    rfl

theorem factory_answer_eq (h : FacRep σ s) (hf : Wire.Fac s) (api : Api) (m : QueryMsg) :
    Factory.answerS api σ m = Factory.answer api s m := by
  cases m with
  | config =>
    show (loadAt asOwnConfig σ Factory.configKey >>= _) = _
    rw [h.config hf]
    show (api.humanize s.config.owner >>= _) = ((api.humanize s.config.owner >>= _) >>= _)
    rw [bind_assoc]; rfl
  | pairOf is =>
    show (is.1.toRaw api >>= _) = ((is.1.toRaw api >>= _) >>= _)
    rw [bind_assoc]
    refine bind_congr fun r0 => ?_
    rw [bind_assoc]
    refine bind_congr fun r1 => ?_
    unfold loadAt
    rw [h.mayPair hf]
    cases AMap.get s.pairs (Factory.pairKey (r0, r1)) <;> rfl
  | pairs st l =>
    have key : ∀ sa, Factory.readPairsS api σ sa l = Factory.readPairs api s sa l := by
      intro sa
      unfold Factory.readPairsS Factory.readPairs
      simp only
      rw [under_eq h.holds.sorted opens_pairs h.sorted (fun p => (pairRawJ p).print) h.mem_pairs, ← List.map_take, toNormalAll_map]
      · have : after s.pairs (Factory.calcRangeStart sa) = Factory.rangeFrom s.pairs (Factory.calcRangeStart sa) := by
          cases Factory.calcRangeStart sa <;> rfl
        rw [this]
      · exact fun e he => hf.pairs e (mem_after.mp (List.mem_of_mem_take he)).1
    show (_ >>= _) = ((_ >>= _) >>= _)
    rw [bind_assoc]
    refine bind_congr fun sa => ?_
    rw [key]
  | nativeTokenDecimals d =>
    show (loadAt (asNum 256) σ (Factory.allowKey d) >>= _) = _
    rw [h.allowed hf]; rfl
  | _ => rfl

end

end StoreL
end Halo
