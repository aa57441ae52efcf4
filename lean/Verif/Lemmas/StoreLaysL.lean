import Verif.Lemmas.StoreTextL
/-! # Layout of the storage, and what it determines -/

namespace Halo
namespace StoreL
open Codec QueryCodec ByteChain
open _root_.Halo.Spec

variable {L : Prop} {σ : Store}

/-! ## Layout -/

theorem Holds.lays {V : Slot → Option Bytes} (h : Holds σ V) {E : Bytes → Bytes → Prop}
    (h1 : ∀ s v, V s = some v → E s.key v) (h2 : ∀ k v, E k v → ∃ s, V s = some v ∧ s.key = k) : Lays σ E := by
  refine ⟨h.sorted.imp fun h => bLt_lt.1 h, fun k v => h.mem.trans ⟨?_, h2 k v⟩⟩
  rintro ⟨s, hv, rfl⟩
  exact h1 s v hv

theorem token_lays {s : TokenState} (h : Holds σ (tokenVal s)) : Lays σ (TokenEntry s) := by
  refine h.lays (fun t v hv => ?_) ?_
  · cases t with
    | item ns =>
      by_cases e : ns = Token.infoKey
      · subst e
        simp only [tokenVal, if_true, Option.some.injEq] at hv
        rw [← hv, token_text]
        exact .info
      · by_cases e' : ns = asc "contract_info"
        · subst e'
          simp only [tokenVal, e, if_true, if_false, Option.some.injEq] at hv
          rw [← hv]
          exact .version
        · simp [tokenVal, e, e'] at hv
    | entry ns a =>
      by_cases e : ns = asc "balance"
      · subst e
        simp only [tokenVal, if_true, Option.map_eq_some_iff] at hv
        obtain ⟨n, hn, rfl⟩ := hv
        rw [u128_text]
        exact .balance a n hn
      · simp [tokenVal, e] at hv
    | entry2 ns a b =>
      by_cases e : ns = asc "allowance"
      · subst e
        simp only [tokenVal, if_true, Option.map_eq_some_iff] at hv
        obtain ⟨n, hn, rfl⟩ := hv
        rw [allowance_text]
        exact .allowance a b n hn
      · by_cases e' : ns = asc "allowance_spender"
        · subst e'
          simp only [tokenVal, e, if_true, if_false, Option.map_eq_some_iff] at hv
          obtain ⟨n, hn, rfl⟩ := hv
          rw [allowance_text]
          exact .spender b a n hn
        · simp [tokenVal, e, e'] at hv
  · rintro k v (_ | _ | ⟨a, n, hn⟩ | ⟨o, p, x, hx⟩ | ⟨o, p, x, hx⟩)
    · exact ⟨.item (asc "contract_info"), rfl, rfl⟩
    · exact ⟨.item Token.infoKey, by rw [← token_text]; rfl, rfl⟩
    · exact ⟨.entry (asc "balance") a, by rw [← u128_text]; simp [tokenVal, hn], rfl⟩
    · exact ⟨.entry2 (asc "allowance") o p, by rw [allow_val, hx, ← allowance_text]; rfl, by
        show mapKey2 _ _ _ = _
        simp only [mapKey2, lengthed, List.append_assoc]; rfl⟩
    · exact ⟨.entry2 (asc "allowance_spender") p o, by rw [spender_val, hx, ← allowance_text]; rfl, by
        show mapKey2 _ _ _ = _
        simp only [mapKey2, lengthed, List.append_assoc]; rfl⟩

theorem item_lays {name key : Bytes} (hne : key ≠ asc "contract_info") {j : Json} (h : Holds σ (oneItem name key j)) {E : Bytes → Bytes → Prop}
    (hE : ∀ k v, E k v ↔ (k = asc "contract_info" ∧ v = (versionJ name (asc "0.1.0")).print) ∨ (k = key ∧ v = j.print)) : Lays σ E := by
  refine h.lays (fun t v hv => ?_) fun k v he => ?_
  · cases t with
    | item ns =>
      by_cases e : ns = key
      · subst e
        simp only [oneItem, if_true, Option.some.injEq] at hv
        exact (hE _ _).2 (.inr ⟨rfl, hv.symm⟩)
      · by_cases e' : ns = asc "contract_info"
        · subst e'
          simp only [oneItem, e, if_true, if_false, Option.some.injEq] at hv
          exact (hE _ _).2 (.inl ⟨rfl, hv.symm⟩)
        · simp [oneItem, e, e'] at hv
    | entry ns a => cases hv
    | entry2 ns a b => cases hv
  · rcases (hE k v).1 he with ⟨rfl, rfl⟩ | ⟨rfl, rfl⟩
    · exact ⟨.item (asc "contract_info"), by simp [oneItem, hne.symm], rfl⟩
    · exact ⟨.item k, by simp [oneItem], rfl⟩

theorem pair_lays {s : Pair.State} (h : Holds σ (pairVal s)) : Lays σ (PairEntry s) := by
  refine item_lays (by decide) h fun k v => ⟨?_, ?_⟩
  · rintro (_ | _)
    · exact .inl ⟨rfl, rfl⟩
    · exact .inr ⟨rfl, (pair_text s).symm⟩
  · rintro (⟨rfl, rfl⟩ | ⟨rfl, rfl⟩)
    · exact .version
    · rw [pair_text]; exact .info

theorem router_lays {s : Router.State} (h : Holds σ (routerVal s)) : Lays σ (RouterEntry s) := by
  refine item_lays (by decide) h fun k v => ⟨?_, ?_⟩
  · rintro (_ | _)
    · exact .inl ⟨rfl, rfl⟩
    · exact .inr ⟨rfl, (router_text s).symm⟩
  · rintro (⟨rfl, rfl⟩ | ⟨rfl, rfl⟩)
    · exact .version
    · rw [router_text]; exact .config

theorem factory_lays {s : Factory.State} (h : FacRep σ s) : Lays σ (FactoryEntry s) := by
  have n1 : asc "contract_info" ≠ Factory.configKey := by decide
  have n2 : asc "contract_info" ≠ Factory.tmpKey := by decide
  have n3 : Factory.tmpKey ≠ Factory.configKey := by decide
  have n4 : asc "allow_native_token" ≠ asc "pair_info" := by decide
  refine h.holds.lays (fun t v hv => ?_) ?_
  · cases t with
    | item ns =>
      by_cases e : ns = Factory.configKey
      · subst e
        simp only [factoryVal, if_true, Option.some.injEq] at hv
        rw [← hv, config_text]
        exact .config
      · by_cases e' : ns = Factory.tmpKey
        · subst e'
          simp only [factoryVal, e, if_true, if_false, Option.map_eq_some_iff] at hv
          obtain ⟨t, ht, rfl⟩ := hv
          rw [tmp_text]
          exact .tmp t ht
        · by_cases e'' : ns = asc "contract_info"
          · subst e''
            simp only [factoryVal, e, e', if_true, if_false, Option.some.injEq] at hv
            rw [← hv]
            exact .version
          · simp [factoryVal, e, e', e''] at hv
    | entry ns a =>
      by_cases e : ns = asc "pair_info"
      · subst e
        simp only [factoryVal, if_true, Option.map_eq_some_iff] at hv
        obtain ⟨n, hn, rfl⟩ := hv
        rw [pair_text]
        exact .pair a n (get_mem hn)
      · by_cases e' : ns = asc "allow_native_token"
        · subst e'
          simp only [factoryVal, e, if_true, if_false, Option.map_eq_some_iff] at hv
          obtain ⟨n, hn, rfl⟩ := hv
          exact .allow a n hn
        · simp [factoryVal, e, e'] at hv
    | entry2 ns a b => cases hv
  · rintro k v (_ | _ | ⟨t, ht⟩ | ⟨k, p, hp⟩ | ⟨d, n, hn⟩)
    · exact ⟨.item (asc "contract_info"), by simp only [factoryVal, n1, n2, if_true, if_false]; rfl, rfl⟩
    · exact ⟨.item Factory.configKey, by rw [← config_text]; rfl, rfl⟩
    · exact ⟨.item Factory.tmpKey, by rw [← tmp_text]; simp only [factoryVal, n3, if_true, if_false, ht, Option.map_some], rfl⟩
    · exact ⟨.entry (asc "pair_info") k, by rw [← pair_text]; simp only [factoryVal, if_true, h.sorted.get_of_mem hp, Option.map_some], rfl⟩
    · exact ⟨.entry (asc "allow_native_token") d, by simp only [factoryVal, n4, if_true, if_false, hn, Option.map_some]; rfl, rfl⟩

theorem state_stores {adm : Option Addr} {k : Kind} {s : CState} (h : StateRep k σ s) : Stores ⟨adm, k, σ⟩ s := by
  cases h with
  | token h => exact ⟨rfl, token_lays h⟩
  | pair h => exact ⟨rfl, pair_lays h⟩
  | factory h => exact ⟨rfl, factory_lays h⟩
  | router h => exact ⟨rfl, router_lays h⟩
  | other σ => rfl

theorem Rep.onDisk {d : SWorld} {w : World} (h : Rep L d w) : OnDisk d w := by
  refine ⟨h.bank, h.next, h.block, h.isSome, fun a x ct hx hc => ?_⟩
  have := h.cells a
  rw [hx, hc] at this
  cases this with
  | some adm h => exact ⟨rfl, state_stores h⟩

/-! ## What is stored determines what is read -/

theorem Holds.det {V V' : Slot → Option Bytes} (h : Holds σ V) (h' : Holds σ V') (s : Slot) : V s = V' s := by
  by_cases hs : s.ok
  · rw [← h.at_ s hs, h'.at_ s hs]
  · cases e : V s with
    | some v => exact absurd (h.dom s v e) hs
    | none =>
      cases e' : V' s with
      | some v => exact absurd (h'.dom s v e') hs
      | none => rfl

theorem print_det {α : Type} {f : Json → Option α} {j : α → Json} {x y : α} (hx : f (j x) = some x) (hy : f (j y) = some y)
    (h : (j x).print = (j y).print) : x = y := by
  have : j x = j y := by
    have e := Json.parse_print (j x)
    rw [h, Json.parse_print] at e
    exact (Option.some.inj e).symm
  rw [this, hy] at hx
  exact (Option.some.inj hx).symm

theorem map_det {α : Type} {f : Json → Option α} {j : α → Json} {o o' : Option α} (ho : ∀ x, o = some x → f (j x) = some x)
    (ho' : ∀ x, o' = some x → f (j x) = some x) (h : o.map (fun x => (j x).print) = o'.map (fun x => (j x).print)) : o = o' := by
  cases o with
  | none => cases o' with
    | none => rfl
    | some _ => cases h
  | some x => cases o' with
    | none => cases h
    | some y => rw [print_det (ho x rfl) (ho' y rfl) (Option.some.inj h)]

theorem state_det {k k' : Kind} {s t : CState} (h : StateRep k σ s) (h' : StateRep k' σ t) (hk : k = k')
    (hs : FitsAll (storedNumbers s)) (ht : FitsAll (storedNumbers t)) : ReadsAlike s t := by
  subst hk
  cases h with
  | token h =>
    rename_i s
    cases h' with
    | token h' =>
      rename_i t
      have hs := Wire.tok_iff.1 hs
      have ht := Wire.tok_iff.1 ht
      have e := h.det h'
      have e1 := e (.item Token.infoKey)
      simp only [tokenVal, if_true, Option.some.injEq] at e1
      have e1 : recOf s = recOf t := print_det (asTokenRec_J _ hs.dec hs.sup hs.cap) (asTokenRec_J _ ht.dec ht.sup ht.cap) e1
      simp only [recOf, TokenRec.mk.injEq] at e1
      obtain ⟨a1, a2, a3, a4, a5⟩ := e1
      refine ⟨a1, a2, a3, a4, a5, fun a => ?_, fun o p => ?_⟩
      · have := e (.entry (asc "balance") a)
        simp only [tokenVal, if_true] at this
        exact map_det (f := asU128) (fun n hn => asU128_u128J (hs.bal _ (get_mem hn))) (fun n hn => asU128_u128J (ht.bal _ (get_mem hn))) this
      · have := e (.entry2 (asc "allowance") o p)
        rw [allow_val, allow_val] at this
        exact map_det (f := asAllowanceA) (fun n hn => allow_read (hs.all _ (get_mem hn)) (hs.exp _ (get_mem hn)))
          (fun n hn => allow_read (ht.all _ (get_mem hn)) (ht.exp _ (get_mem hn))) this
  | pair h =>
    cases h' with
    | pair h' =>
      have := h.det h' (.item Pair.infoKey)
      simp only [pairVal, oneItem, if_true, Option.some.injEq] at this
      exact print_det (asPairRaw_J hs) (asPairRaw_J ht) this
  | factory h =>
    rename_i s
    cases h' with
    | factory h' =>
      rename_i t
      have hs := Wire.fac_iff.1 hs
      have ht := Wire.fac_iff.1 ht
      have e := h.holds.det h'.holds
      refine ⟨?_, ?_, ?_, fun d => ?_⟩
      · have := e (.item Factory.configKey)
        simp only [factoryVal, if_true, Option.some.injEq] at this
        exact print_det (asOwnConfig_J hs.pcode hs.tcode) (asOwnConfig_J ht.pcode ht.tcode) this
      · have := e (.item Factory.tmpKey)
        have n3 : Factory.tmpKey ≠ Factory.configKey := by decide
        simp only [factoryVal, n3, if_true, if_false] at this
        exact map_det (f := asTmp) (fun x hx => asTmp_J (hs.tmp x hx).1 (hs.tmp x hx).2) (fun x hx => asTmp_J (ht.tmp x hx).1 (ht.tmp x hx).2) this
      · have g : ∀ k, AMap.get s.pairs k = AMap.get t.pairs k := fun k => by
          have := e (.entry (asc "pair_info") k)
          simp only [factoryVal, if_true] at this
          exact map_det (f := asPairRaw) (fun x hx => asPairRaw_J (hs.pairs _ (get_mem hx))) (fun x hx => asPairRaw_J (ht.pairs _ (get_mem hx))) this
        refine sorted_ext h.sorted h'.sorted fun x => ⟨fun hx => ?_, fun hx => ?_⟩
        · have := h.sorted.get_of_mem (k := x.1) (v := x.2) hx
          rw [g] at this
          exact get_mem this
        · have := h'.sorted.get_of_mem (k := x.1) (v := x.2) hx
          rw [← g] at this
          exact get_mem this
      · have := e (.entry (asc "allow_native_token") d)
        have n4 : asc "allow_native_token" ≠ asc "pair_info" := by decide
        simp only [factoryVal, n4, if_true, if_false] at this
        exact map_det (f := asNum 256) (fun x hx => by simp [asNum, hs.allow _ (get_mem hx)]) (fun x hx => by simp [asNum, ht.allow _ (get_mem hx)]) this
  | router h =>
    cases h' with
    | router h' =>
      have := h.det h' (.item Router.configKey)
      simp only [routerVal, oneItem, if_true, Option.some.injEq] at this
      exact print_det (asRouterState_J _) (asRouterState_J _) this
  | other σ =>
    cases h' with
    | other σ => exact trivial

theorem Rep.det {d : SWorld} {w v : World} (h : Rep L d w) (h' : Rep L d v) (ht : Wire.Typed w) (ht' : Wire.Typed v) {a : Addr} {x y : Contract}
    (hx : w.contracts a = some x) (hy : v.contracts a = some y) : ReadsAlike x.state y.state := by
  have h1 := h.cells a
  have h2 := h'.cells a
  rw [hx] at h1
  rw [hy] at h2
  generalize d.cells a = o at h1 h2
  cases h1 with
  | some adm e =>
    cases h2 with
    | some adm' e' => exact state_det e e' rfl (ht a _ _ hx) (ht' a _ _ hy)

end StoreL
end Halo
