import Verif.Lemmas.CodecL5
import Verif.Props.Wire
/-! # C83: messages on the wire -/

namespace Halo
open _root_.Halo.Spec
namespace Codec

/-- How a contract sees payloads. -/
def payFor : Kind → Bytes → HookMsg
  | .pair => payloadBy readPairHook
  | .router => payloadBy readRouterHook
  | _ => classifyHook

theorem readExec_eq (k : Kind) (b : Bytes) : readExec k b = (Json.parse b).bind (tagged (casesOf (payFor k) k)) := by
  cases k with
  | other =>
    show (Json.parse b).bind (fun _ => none) = (Json.parse b).bind (tagged [])
    congr 1
    funext j
    unfold tagged
    split <;> rfl
  | _ => rfl

/-- The bytes are no message. -/
theorem classify_raw {b b' : Bytes} (h : classify b = .raw b') : b' = b ∧ (Json.parse b).bind (tagged allCases) = none := by
  rw [classify_eq] at h
  cases hc : (Json.parse b).bind (tagged allCases) with
  | none => rw [hc] at h; cases h; exact ⟨rfl, rfl⟩
  | some m =>
    rw [hc] at h
    have h : m = .raw b' := h
    subst h
    obtain ⟨j, _, hj⟩ := Option.bind_eq_some_iff.mp hc
    obtain ⟨t, x, f, rfl, hl, hf⟩ := tagged_inv hj
    rcases all_find hl with ⟨k, hk⟩ | hd
    · have := (casesOf_read classifyHook_fits (mem_of_lookup hk) hf).shape
      cases k <;> exact absurd this (fun h => h)
    · obtain ⟨_, _, _, e, _⟩ := direct_read (mem_of_lookup hd) hf
      cases e

theorem classify_some {b : Bytes} (h : ∀ x, classify b ≠ .raw x) : ∃ j, Json.parse b = some j ∧ tagged allCases j = some (classify b) := by
  rw [classify_eq] at h ⊢
  cases hc : (Json.parse b).bind (tagged allCases) with
  | none => rw [hc] at h; exact absurd rfl (h b)
  | some m =>
    obtain ⟨j, h1, h2⟩ := Option.bind_eq_some_iff.mp hc
    exact ⟨j, h1, h2⟩

theorem classify_of {b : Bytes} {j : Json} {m : ExecMsg} (h : Json.parse b = some j) (hm : tagged allCases j = some m) : classify b = m := by
  rw [classify_eq, h]
  show (tagged allCases j).getD _ = m
  rw [hm]; rfl

/-- For a message in a contract's interface: `classify` gives it exactly when the contract reads it. -/
theorem classify_interface {k : Kind} {b : Bytes} {m : ExecMsg} (hi : InInterface k m) :
    classify b = m ↔ (Json.parse b).bind (tagged (casesOf classifyHook k)) = some m := by
  constructor
  · rintro rfl
    obtain ⟨j, h1, h2⟩ := classify_some (b := b) (fun x e => by rw [e] at hi; cases k <;> exact hi)
    rw [h1]
    exact all_iff.mp ⟨h2, hi⟩
  · intro h
    obtain ⟨j, h1, h2⟩ := Option.bind_eq_some_iff.mp h
    exact classify_of h1 (all_iff.mpr h2).1

theorem read_interface {k : Kind} {b : Bytes} {m : ExecMsg} (h : readExec k b = some m) : InInterface k m := by
  rw [readExec_eq] at h
  obtain ⟨j, h1, h2⟩ := Option.bind_eq_some_iff.mp h
  by_cases hk : k = .token
  · subst hk
    obtain ⟨t, x, f, rfl, hl, hf⟩ := tagged_inv h2
    exact (casesOf_read classifyHook_fits (mem_of_lookup hl) hf).shape
  · rcases repay hk h2 with ⟨s, a, p, rfl, hp⟩ | ⟨_, hp⟩
    · have := (all_iff.mpr (hp classifyHook)).2
      cases k <;> exact this
    · exact (all_iff.mpr (hp classifyHook)).2

/-- What a contract reads and what `classify` says differ at most in how a payload is shown. -/
theorem read_classify {k : Kind} {b : Bytes} {m : ExecMsg} (h : readExec k b = some m) :
    (∃ s a p, m = .receive s a (payFor k p) ∧ classify b = .receive s a (classifyHook p)) ∨
      ((∀ s a x, m ≠ .receive s a x) ∧ classify b = m) := by
  have hi := read_interface h
  rw [readExec_eq] at h
  obtain ⟨j, h1, h2⟩ := Option.bind_eq_some_iff.mp h
  by_cases hk : k = .token
  · subst hk
    refine .inr ⟨fun s a x e => by subst e; exact hi, classify_of h1 (all_iff.mpr h2).1⟩
  · rcases repay hk h2 with ⟨s, a, p, rfl, hp⟩ | ⟨hn, hp⟩
    · exact .inl ⟨s, a, p, rfl, classify_of h1 (all_iff.mpr (hp classifyHook)).1⟩
    · exact .inr ⟨hn, classify_of h1 (all_iff.mpr (hp classifyHook)).1⟩

/-- And the other way round. -/
theorem classify_read {k : Kind} {b : Bytes} (hi : InInterface k (classify b)) :
    (∃ s a p, classify b = .receive s a (classifyHook p) ∧ readExec k b = some (.receive s a (payFor k p))) ∨
      ((∀ s a x, classify b ≠ .receive s a x) ∧ readExec k b = some (classify b)) := by
  have h := (classify_interface hi).mp rfl
  obtain ⟨j, h1, h2⟩ := Option.bind_eq_some_iff.mp h
  rw [readExec_eq, h1]
  by_cases hk : k = .token
  · subst hk
    exact .inr ⟨fun s a x e => by rw [e] at hi; exact hi, h2⟩
  · rcases repay hk h2 with ⟨s, a, p, e, hp⟩ | ⟨hn, hp⟩
    · exact .inl ⟨s, a, p, e, hp _⟩
    · exact .inr ⟨hn, hp _⟩

theorem classify_wellFormed (b : Bytes) : WellFormed (classify b) := by
  by_cases hr : ∃ x, classify b = .raw x
  · obtain ⟨x, hx⟩ := hr
    have hraw := classify_raw hx
    obtain ⟨rfl, hn⟩ := hraw
    rw [hx]
    refine ⟨fits_nil, fun b h => (nomatch h), ?_⟩
    rintro b' e
    obtain rfl : x = b' := by injection e
    refine ⟨fun k => ?_, fun p s t h => ?_⟩
    · cases h : readExec k x with
      | none => rfl
      | some m =>
        have hi := read_interface h
        rcases read_classify h with ⟨_, _, _, _, e⟩ | ⟨_, e⟩
        · rw [hx] at e; cases e
        · rw [hx] at e; subst e; cases k <;> exact absurd hi (fun h => h)
    · obtain ⟨j, h1, h2⟩ := Option.bind_eq_some_iff.mp h
      obtain ⟨t', y, f, rfl, hl, hf⟩ := tagged_inv h2
      have hm := mem_of_lookup hl
      simp only [List.mem_cons, Prod.mk.injEq, List.not_mem_nil, or_false] at hm
      rcases hm with ⟨rfl, rfl⟩ | ⟨rfl, rfl⟩
      · obtain ⟨q, hq, _⟩ := Option.map_eq_some_iff.mp hf
        rw [h1] at hn
        have : tagged allCases (variant (asc "swap") y) = some (.swapDirect q.1 q.2.1 q.2.2) :=
          tagged_eq (f := fun b => (swapFields b).map fun p => .swapDirect p.1 p.2.1 p.2.2) rfl (by rw [hq]; rfl)
        rw [show (some (variant (asc "swap") y)).bind (tagged allCases) = tagged allCases (variant (asc "swap") y) from rfl, this] at hn
        cases hn
      · obtain ⟨q, hq, e⟩ := Option.map_eq_some_iff.mp hf
        cases e
  · obtain ⟨j, h1, h2⟩ := classify_some (b := b) (fun x e => hr ⟨x, e⟩)
    obtain ⟨t, x, f, rfl, hl, hf⟩ := tagged_inv h2
    rcases all_find hl with ⟨k, hk⟩ | hd
    · obtain ⟨hs, hfit, hp⟩ := casesOf_read classifyHook_fits (mem_of_lookup hk) hf
      refine ⟨hfit, fun x hx => ?_, fun x hx => absurd ⟨x, hx⟩ hr⟩
      obtain ⟨p, hp⟩ := hp _ hx
      rcases classifyHook_cases p with ⟨h, _⟩ | ⟨h, _⟩ | ⟨h, ho⟩
      · rw [← hp] at h
        rcases readPairHook_inv h with ⟨_, _, _, e, _⟩ | e <;> cases e
      · rw [← hp] at h
        obtain ⟨_, _, _, e, _⟩ := readRouterHook_inv h
        cases e
      · rw [h] at hp; cases hp; exact ho
    · obtain ⟨_, _, _, e, h3, h4⟩ := direct_read (mem_of_lookup hd) hf
      rw [e]
      exact ⟨fits_append (fits_append (fits_append (fits_opt128 h3) (fits_opt128 h4)) fits_nil) fits_nil, fun _ h => (nomatch h), fun _ h => (nomatch h)⟩

theorem fits_inRange {m : ExecMsg} (h : FitsAll (wireNumbers m)) : m.inRange = true := by
  rw [wireNumbers, Wire.fitsAll_append, Wire.fitsAll_append] at h
  obtain ⟨⟨h1, h2⟩, h3⟩ := h
  rw [Wire.expiry_all] at h3
  cases m <;> simp_all [execNumbers, payloadOf, expiryOf, ExecMsg.inRange, Wire.fitsAll_append, Wire.fitsAll_cons, Wire.fitsAll_opt128,
    Wire.fitsAll_opt64, Wire.fitsAll_req, Wire.hook_fits, B128, B64, Wire.fitsAll_nil]

/-- A payload on the wire. -/
theorem payload_plain {m : ExecMsg} (hm : WellFormed m) {h : HookMsg} (hh : payloadOf m = some h) : h.Plain := by
  have hf : FitsAll (hookNumbers h) := by
    have := hm.fits
    rw [wireNumbers, Wire.fitsAll_append, Wire.fitsAll_append, hh] at this
    simpa using this.1.2
  cases h with
  | raw b => exact hm.payload b hh
  | _ => exact Wire.hook_fits.mp hf

theorem expiry_fits {m : ExecMsg} (hm : WellFormed m) {e : Expiration} (he : expiryOf m = some e) : e.fits := by
  have hf : FitsAll (expiryNumbers e) := by
    have := hm.fits
    rw [wireNumbers, Wire.fitsAll_append, he] at this
    simpa using this.2
  cases e with
  | never => trivial
  | _ => exact (Wire.fitsAll_cons.mp hf).1

theorem some_lt {o : Option Nat} {w : Nat} {l : List (Nat × Nat)} (h : FitsAll l) (hl : ∀ n, o = some n → (w, n) ∈ l) :
    ∀ n, o = some n → n < 2 ^ w := fun n hn => h _ (hl n hn)

theorem mem_opt128 {o : Option Nat} {n : Nat} (h : o = some n) : (128, n) ∈ opt128 o := by subst h; exact List.mem_singleton_self _
theorem mem_opt64 {o : Option Nat} {n : Nat} (h : o = some n) : (64, n) ∈ opt64 o := by subst h; exact List.mem_singleton_self _

/-- The execute message itself fits. -/
theorem exec_of {m : ExecMsg} (hm : WellFormed m) : FitsAll (execNumbers m) := by
  have := hm.fits
  rw [wireNumbers, Wire.fitsAll_append, Wire.fitsAll_append] at this
  exact this.1.1

theorem fit1 {a : Nat} {l : List (Nat × Nat)} {w : Nat} (h : FitsAll l) (ha : (w, a) ∈ l) : a < 2 ^ w := h _ ha

theorem tagged_all {t : Str} {b : Json} {f : Json → Option ExecMsg} {m : ExecMsg} (h1 : allCases.lookup t = some f) (h2 : f b = some m)
    {x : Bytes} (hx : x = (variant t b).print) : classify x = m :=
  classify_of (by rw [hx]; exact Json.parse_print _) (tagged_eq h1 h2)

theorem classify_write {m : ExecMsg} (hm : WellFormed m) : classify (writeExec m) = m := by
  have hf := exec_of hm
  have hp := fun h hh => payload_plain (m := m) hm (h := h) hh
  have he := fun e hh => expiry_fits (m := m) hm (e := e) hh
  have hB : B128 = 2 ^ 128 := rfl
  cases m with
  | transfer r a =>
    exact tagged_all (f := asTransfer .transfer) rfl (bsome (structOf_obj rfl) (bsome (reqd_eq (j := .str r) rfl rfl)
      (bsome (reqd_eq rfl (asU128_u128J (fit1 hf (by simp [execNumbers])))) rfl))) rfl
  | burn a =>
    exact tagged_all (f := asBurn) rfl (bsome (structOf_obj rfl)
      (bsome (reqd_eq rfl (asU128_u128J (fit1 hf (by simp [execNumbers])))) rfl)) rfl
  | send t a h =>
    exact tagged_all (f := asSend classifyHook) rfl (bsome (structOf_obj rfl) (bsome (reqd_eq (j := .str t) rfl rfl)
      (bsome (reqd_eq rfl (asU128_u128J (fit1 hf (by simp [execNumbers])))) (bsome (reqd_eq rfl (asBinary_payloadJ h))
        (by rw [classifyHook_write (hp h rfl)]; rfl))))) rfl
  | increaseAllowance s a e =>
    exact tagged_all (f := asAllowance .increaseAllowance) rfl (bsome (structOf_obj rfl) (bsome (reqd_eq (j := .str s) rfl rfl)
      (bsome (reqd_eq rfl (asU128_u128J (fit1 hf (by simp [execNumbers])))) (bsome (optl_eq rfl (opt_expiration e fun x hx => he x hx)) rfl)))) rfl
  | decreaseAllowance s a e =>
    exact tagged_all (f := asAllowance .decreaseAllowance) rfl (bsome (structOf_obj rfl) (bsome (reqd_eq (j := .str s) rfl rfl)
      (bsome (reqd_eq rfl (asU128_u128J (fit1 hf (by simp [execNumbers])))) (bsome (optl_eq rfl (opt_expiration e fun x hx => he x hx)) rfl)))) rfl
  | transferFrom o r a =>
    exact tagged_all (f := asTransferFrom) rfl (bsome (structOf_obj rfl) (bsome (reqd_eq (j := .str o) rfl rfl) (bsome (reqd_eq (j := .str r) rfl rfl)
      (bsome (reqd_eq rfl (asU128_u128J (fit1 hf (by simp [execNumbers])))) rfl)))) rfl
  | sendFrom o t a h =>
    exact tagged_all (f := asSendFrom classifyHook) rfl (bsome (structOf_obj rfl) (bsome (reqd_eq (j := .str o) rfl rfl) (bsome (reqd_eq (j := .str t) rfl rfl)
      (bsome (reqd_eq rfl (asU128_u128J (fit1 hf (by simp [execNumbers])))) (bsome (reqd_eq rfl (asBinary_payloadJ h))
        (by rw [classifyHook_write (hp h rfl)]; rfl)))))) rfl
  | burnFrom o a =>
    exact tagged_all (f := asBurnFrom) rfl (bsome (structOf_obj rfl) (bsome (reqd_eq (j := .str o) rfl rfl)
      (bsome (reqd_eq rfl (asU128_u128J (fit1 hf (by simp [execNumbers])))) rfl))) rfl
  | mint r a =>
    exact tagged_all (f := asTransfer .mint) rfl (bsome (structOf_obj rfl) (bsome (reqd_eq (j := .str r) rfl rfl)
      (bsome (reqd_eq rfl (asU128_u128J (fit1 hf (by simp [execNumbers])))) rfl))) rfl
  | updateMinter x =>
    exact tagged_all (f := asUpdateMinter) rfl (bsome (structOf_obj rfl) (bsome (optl_eq rfl (opt_str x)) rfl)) rfl
  | marketing =>
    exact tagged_all (f := asMarketing) rfl (bsome (structOf_obj rfl) (bsome (optl_eq (x := none) rfl rfl) (bsome (optl_eq (x := none) rfl rfl)
      (bsome (optl_eq (x := none) rfl rfl) rfl)))) rfl
  | receive s a h =>
    exact tagged_all (f := asReceive classifyHook) rfl (bsome (structOf_obj rfl) (bsome (reqd_eq (j := .str s) rfl rfl)
      (bsome (reqd_eq rfl (asU128_u128J (fit1 hf (by simp [execNumbers])))) (bsome (reqd_eq rfl (asBinary_payloadJ h))
        (by rw [classifyHook_write (hp h rfl)]; rfl))))) rfl
  | provideLiquidity as t r =>
    exact tagged_all (f := asProvide) rfl (bsome (structOf_obj rfl) (bsome (reqd_eq rfl (asTwo_twoJ as
      (asAsset_assetJ _ (fit1 hf (by simp [execNumbers]))) (asAsset_assetJ _ (fit1 hf (by simp [execNumbers])))))
      (bsome (optl_eq rfl (opt_decimal (o := t) fun n hn => fit1 hf (by simp [execNumbers, mem_opt128 hn])))
        (bsome (optl_eq rfl (opt_str r)) rfl)))) rfl
  | executeSwapOperations ops x t =>
    exact tagged_all (f := fun b => (operationsFields b).map fun p => .executeSwapOperations p.1 p.2.1 p.2.2) rfl
      (by exact msome (operationsFields_J (ops := ops) (m := x) (t := t) fun n hn => fit1 hf (mem_opt128 hn)) rfl) rfl
  | executeSwapOperation o t =>
    exact tagged_all (f := asOperation) rfl (bsome (structOf_obj rfl) (bsome (reqd_eq rfl (asOp_opJ o)) (bsome (optl_eq rfl (opt_str t)) rfl))) rfl
  | assertMinimumReceive i p x r =>
    exact tagged_all (f := asAssertMinimum) rfl (bsome (structOf_obj rfl) (bsome (reqd_eq rfl (asInfo_infoJ i))
      (bsome (reqd_eq rfl (asU128_u128J (fit1 hf (by simp [execNumbers])))) (bsome (reqd_eq rfl (asU128_u128J (fit1 hf (by simp [execNumbers]))))
        (bsome (reqd_eq (j := .str r) rfl rfl) rfl))))) rfl
  | updateConfig o t p =>
    exact tagged_all (f := asUpdateConfig) rfl (bsome (structOf_obj rfl) (bsome (optl_eq rfl (opt_str o))
      (bsome (optl_eq rfl (opt_num (o := t) fun n hn => fit1 hf (List.mem_append_left _ (mem_opt64 hn))))
        (bsome (optl_eq rfl (opt_num (o := p) fun n hn => fit1 hf (List.mem_append_right _ (mem_opt64 hn)))) rfl)))) rfl
  | createPair is r =>
    exact tagged_all (f := asCreatePair) rfl (bsome (structOf_obj rfl) (bsome (reqd_eq rfl (asTwo_twoJ is (asInfo_infoJ _) (asInfo_infoJ _)))
      (bsome (reqd_eq rfl (asRequirements_J r (fit1 hf (by simp [execNumbers, reqNumbers])) (fit1 hf (by simp [execNumbers, reqNumbers])))) rfl))) rfl
  | addNativeTokenDecimals d k =>
    exact tagged_all (f := asAddNative) rfl (bsome (structOf_obj rfl) (bsome (reqd_eq (j := .str d) rfl rfl)
      (bsome (reqd_eq rfl (asNum_num (b := 256) (fit1 (w := 8) hf (by simp [execNumbers])))) rfl))) rfl
  | migratePair a k =>
    exact tagged_all (f := asMigratePair) rfl (bsome (structOf_obj rfl) (bsome (reqd_eq (j := .str a) rfl rfl)
      (bsome (optl_eq rfl (opt_num (o := k) fun n hn => fit1 hf (mem_opt64 hn))) rfl))) rfl
  | swapDirect p s t =>
    exact tagged_all (f := fun b => (swapFields b).map fun p => .swapDirect p.1 p.2.1 p.2.2) rfl
      (by exact msome (swapFields_J (b := p) (m := s) (t := t) (fun n hn => fit1 hf (List.mem_append_left _ (mem_opt128 hn)))
        (fun n hn => fit1 hf (List.mem_append_right _ (mem_opt128 hn)))) rfl) rfl
  | raw b =>
    obtain ⟨h1, h2⟩ := hm.raw b rfl
    show classify b = .raw b
    by_cases hr : ∃ x, classify b = .raw x
    · obtain ⟨x, hx⟩ := hr
      rw [hx, (classify_raw hx).1]
    · obtain ⟨j, hj, h3⟩ := classify_some (b := b) (fun x e => hr ⟨x, e⟩)
      obtain ⟨t, x, f, rfl, hl, hf⟩ := tagged_inv h3
      rcases all_find hl with ⟨k, hk⟩ | hd
      · have hi := (casesOf_read classifyHook_fits (mem_of_lookup hk) hf).shape
        rcases classify_read hi with ⟨_, _, _, _, e⟩ | ⟨_, e⟩ <;> (rw [h1 k] at e; cases e)
      · have hm := mem_of_lookup hd
        simp only [directCases, List.mem_cons, Prod.mk.injEq, List.not_mem_nil, or_false] at hm
        obtain ⟨rfl, rfl⟩ := hm
        obtain ⟨p, hp, _⟩ := Option.map_eq_some_iff.mp hf
        refine absurd ?_ (h2 p.1 p.2.1 p.2.2)
        rw [readPairHook, hj]
        show asPairHook (variant (asc "swap") x) = some _
        exact tagged_eq (f := fun b => (swapFields b).map fun p => HookMsg.swap p.1 p.2.1 p.2.2) rfl (by rw [hp]; rfl)

/-! ## What the contracts do with a message outside their interface -/

theorem token_interface {api : Api} {blk : Block} {s : TokenState} {sender : Addr} {m : ExecMsg} {x : TokenState × Response}
    (h : Token.execute api blk s sender m = .ok x) : InInterface .token m := by
  cases m <;> trivial

theorem pair_interface {api : Api} {q : Querier} {self : Addr} {s : Pair.State} {sender : Addr} {funds : List Coin} {m : ExecMsg}
    {x : Pair.State × Response} (h : Pair.execute api q self s sender funds m = .ok x) : InInterface .pair m := by
  cases m <;> trivial

theorem factory_interface {api : Api} {q : Querier} {self : Addr} {s : Factory.State} {sender : Addr} {m : ExecMsg}
    {x : Factory.State × Response} (h : Factory.execute api q self s sender m = .ok x) : InInterface .factory m := by
  cases m <;> trivial

theorem router_interface {api : Api} {q : Querier} {self : Addr} {s : Router.State} {sender : Addr} {m : ExecMsg}
    {x : Router.State × Response} (h : Router.execute api q self s sender m = .ok x) : InInterface .router m := by
  cases m <;> trivial

theorem pair_payload (api : Api) (q : Querier) (self : Addr) (st : Pair.State) (caller : Addr) (funds : List Coin) (s : Str) (a : Nat)
    (p : Bytes) : Pair.execute api q self st caller funds (.receive s a (classifyHook p)) =
      Pair.execute api q self st caller funds (.receive s a (payFor .pair p)) := by
  rcases classifyHook_cases p with ⟨h, _⟩ | ⟨h, hn⟩ | ⟨h, ho⟩
  · rw [show payFor .pair p = classifyHook p by simp [payFor, payloadBy, h]]
  · rw [show payFor .pair p = .raw p by simp [payFor, payloadBy, hn]]
    obtain ⟨_, _, _, e, _⟩ := readRouterHook_inv h
    rw [e]; rfl
  · rw [show payFor .pair p = .raw p by simp [payFor, payloadBy, ho.1], h]

theorem router_payload (api : Api) (q : Querier) (self : Addr) (st : Router.State) (caller : Addr) (s : Str) (a : Nat)
    (p : Bytes) : Router.execute api q self st caller (.receive s a (classifyHook p)) =
      Router.execute api q self st caller (.receive s a (payFor .router p)) := by
  rcases classifyHook_cases p with ⟨h, hn⟩ | ⟨h, hn⟩ | ⟨h, ho⟩
  · rw [show payFor .router p = .raw p by simp [payFor, payloadBy, hn]]
    rcases readPairHook_inv h with ⟨_, _, _, e, _⟩ | e <;> (rw [e]; rfl)
  · rw [show payFor .router p = classifyHook p by simp [payFor, payloadBy, h]]
  · rw [show payFor .router p = .raw p by simp [payFor, payloadBy, ho.2], h]

/-- Handling what was read and handling the message as the model has it succeed with the same results. -/
theorem deliver {k : Kind} {b : Bytes} {α β : Type} (exec : ExecMsg → R α) (rest : α → R β) (r : β)
    (hi : ∀ m x, exec m = .ok x → InInterface k m)
    (hp : ∀ s a p, exec (.receive s a (classifyHook p)) = exec (.receive s a (payFor k p))) :
    ((okOr (readExec k b) .parse) >>= fun m => exec m >>= rest) = .ok r ↔ (exec (classify b) >>= rest) = .ok r := by
  cases hr : readExec k b with
  | some m =>
    show (exec m >>= rest) = .ok r ↔ _
    rcases read_classify hr with ⟨s, a, p, rfl, e⟩ | ⟨_, e⟩
    · rw [e, hp]
    · rw [e]
  | none =>
    constructor
    · intro h; cases h
    · intro h
      cases hx : exec (classify b) with
      | error e => rw [hx] at h; cases h
      | ok x =>
        rcases classify_read (hi _ _ hx) with ⟨_, _, _, _, e⟩ | ⟨_, e⟩ <;> (rw [hr] at e; cases e)

/-! ## What the contracts send -/

/-- Payloads a contract sends are the one it was given or a plain swap; it sends no mere bytes and no expirations. -/
def Authored (given : Option HookMsg) : CosmosMsg → Prop
  | .exec _ m _ => (∀ h, payloadOf m = some h → given = some h ∨ ∃ t, h = .swap none none t) ∧ expiryOf m = none ∧ ∀ b, m ≠ .raw b
  | .inst _ _ m _ => ∀ b, m ≠ .raw b
  | _ => True

theorem Authored.onWire {given : Option HookMsg} {cm : CosmosMsg} (h : Authored given cm) (hn : FitsAll (msgNumbers cm))
    (hg : ∀ x, given = some x → x.Plain ∧ FitsAll (hookNumbers x)) : OnWire cm := by
  cases cm with
  | exec t m l =>
    obtain ⟨h1, h2, h3⟩ := h
    refine ⟨?_, fun b hb => ?_, fun b hb => absurd hb (h3 b)⟩
    · rw [wireNumbers, h2, Wire.fitsAll_append, Wire.fitsAll_append]
      refine ⟨⟨(Wire.fitsAll_append.mp hn).1, ?_⟩, Wire.fitsAll_nil⟩
      cases hp : payloadOf m with
      | none => exact Wire.fitsAll_nil
      | some x =>
        rcases h1 x hp with e | ⟨t, rfl⟩
        · simpa using (hg x e).2
        · exact Wire.fitsAll_nil
    · rcases h1 _ hb with e | ⟨t, e⟩
      · exact (hg _ e).1
      · cases e
  | inst ad code m l =>
    refine ⟨?_, fun b hb => absurd hb (h b)⟩
    simp only [msgNumbers, Wire.fitsAll_append, List.cons_append, Wire.fitsAll_cons] at hn
    exact hn.2.1
  | _ => trivial

theorem token_authored {api : Api} {blk : Block} {s s' : TokenState} {sender : Addr} {m : ExecMsg} {r : Response}
    (h : Token.execute api blk s sender m = .ok (s', r)) : ∀ sm ∈ r.messages, Authored (payloadOf m) sm.msg := by
  intro sm hsm
  cases Token.execute_inv h with
  | send dst x p =>
    rw [List.mem_singleton.mp hsm]
    exact ⟨fun h hh => .inl (by cases hh; rfl), rfl, fun _ h => nomatch h⟩
  | sendFrom o dst x p =>
    rw [List.mem_singleton.mp hsm]
    exact ⟨fun h hh => .inl (by cases hh; rfl), rfl, fun _ h => nomatch h⟩
  | _ => cases hsm

theorem pair_authored {api : Api} {q : Querier} {me : Addr} {s s' : Pair.State} {sender : Addr} {funds : List Coin} {m : ExecMsg}
    {r : Response} (h : Pair.execute api q me s sender funds m = .ok (s', r)) (g : Option HookMsg) :
    ∀ sm ∈ r.messages, Authored g sm.msg := by
  intro sm hsm
  obtain ⟨cm, rfl, ho⟩ := (Pair.execute_out h).2 sm hsm
  show Authored g cm
  cases cm with
  | exec t x l =>
    refine ⟨?_, ?_, ?_⟩ <;> cases x <;> first
      | exact absurd ho (fun h => h)
      | rfl
      | (intro _ h; cases h)
  | inst _ _ _ _ => exact absurd ho (fun h => h)
  | _ => trivial

theorem factory_authored {api : Api} {q : Querier} {me : Addr} {s s' : Factory.State} {sender : Addr} {m : ExecMsg}
    {r : Response} (h : Factory.execute api q me s sender m = .ok (s', r)) (g : Option HookMsg) :
    ∀ sm ∈ r.messages, Authored g sm.msg := by
  intro sm hsm
  cases Factory.execute_inv h with
  | create as req =>
    rw [List.mem_singleton.mp hsm]
    exact fun _ h => nomatch h
  | migrate k code =>
    rw [List.mem_singleton.mp hsm]
    trivial
  | _ => cases hsm

theorem hop_authored {me dst : Addr} {g : Option HookMsg} : ∀ {ops : List SwapOp} {cm : CosmosMsg},
    cm ∈ Router.hopMsgs me dst ops → Authored g cm := by
  intro ops
  induction ops with
  | nil => intro cm h; cases h
  | cons op t ih =>
    intro cm h
    cases t with
    | nil =>
      rw [List.mem_singleton.mp h]
      exact ⟨fun _ h => (nomatch h), rfl, fun _ h => (nomatch h)⟩
    | cons op' t =>
      rcases List.mem_cons.mp h with h | h
      · rw [h]; exact ⟨fun _ h => (nomatch h), rfl, fun _ h => (nomatch h)⟩
      · exact ih h

theorem router_authored {api : Api} {q : Querier} {me : Addr} {s s' : Router.State} {sender : Addr} {m : ExecMsg}
    {r : Response} (hx : Router.execute api q me s sender m = .ok (s', r)) (g : Option HookMsg) :
    ∀ sm ∈ r.messages, Authored g sm.msg := by
  have ops : ∀ {S ops mn dst}, Router.executeSwapOperations api q me s S ops mn dst = .ok (s', r) →
      ∀ sm ∈ r.messages, Authored g sm.msg := by
    intro S ops mn dst h
    simp only [Router.executeSwapOperations, bind_eq_ok] at h
    obtain ⟨last, _, _, _, h⟩ := h
    cases mn with
    | none =>
      simp only [pure_eq_ok, Prod.mk.injEq] at h
      obtain ⟨_, rfl⟩ := h
      intro sm hsm
      obtain ⟨cm, hcm, rfl⟩ := List.mem_map.mp hsm
      exact hop_authored hcm
    | some k =>
      simp only [bind_eq_ok, pure_eq_ok, Prod.mk.injEq] at h
      obtain ⟨prev, hp, _, rfl⟩ := h
      intro sm hsm
      obtain ⟨cm, hcm, rfl⟩ := List.mem_map.mp hsm
      rcases List.mem_append.mp hcm with hcm | hcm
      · exact hop_authored hcm
      · rw [List.mem_singleton.mp hcm]
        exact ⟨fun _ h => (nomatch h), rfl, fun _ h => (nomatch h)⟩
  cases m with
  | receive S x p =>
    simp only [Router.execute, Router.receiveCw20, bind_eq_ok] at hx
    obtain ⟨_, _, hx⟩ := hx
    cases p with
    | executeSwapOperations o mn dst =>
      simp only [bind_eq_ok] at hx
      obtain ⟨_, _, hx⟩ := hx
      exact ops hx
    | _ => cases hx
  | executeSwapOperations o mn dst =>
    simp only [Router.execute, bind_eq_ok] at hx
    obtain ⟨_, _, hx⟩ := hx
    exact ops hx
  | executeSwapOperation op dst =>
    simp only [Router.execute, bind_eq_ok, Router.executeSwapOperation, pure_eq_ok, Prod.mk.injEq] at hx
    obtain ⟨_, _, _, _, _, _, p, _, x, hxx, _, rfl⟩ := hx
    intro sm hsm
    rw [List.mem_singleton.mp hsm]
    show Authored g (Router.assetIntoSwapMsg _ _ _ _)
    unfold Router.assetIntoSwapMsg
    split
    · exact ⟨fun _ h => (nomatch h), rfl, fun _ h => (nomatch h)⟩
    · exact ⟨fun h hh => .inr (by cases hh; exact ⟨_, rfl⟩), rfl, fun _ h => (nomatch h)⟩
  | assertMinimumReceive i p k dst =>
    simp only [Router.execute, bind_eq_ok, Router.assertMinimumReceive, pure_eq_ok, Prod.mk.injEq] at hx
    obtain ⟨_, _, _, _, _, _, _, _, _, rfl⟩ := hx
    exact fun _ h => nomatch h
  | _ => cases hx

theorem inst_authored {c : Chain} {adv : Adv} {n : Nat} {me sender : Addr} {k : Kind} {m : InstMsg} {s : CState} {fs : List Frame}
    (h : callInstantiate c adv n me sender k m = .ok (s, fs)) (hk : k ≠ .other) :
    ∀ src sm, .msg src sm ∈ fs → Authored none sm.msg := by
  unfold callInstantiate at h
  simp only [bind_eq_ok, require_eq_ok] at h
  obtain ⟨_, _, h⟩ := h
  split at h <;> try simp only [bind_eq_ok, pure_eq_ok, Prod.mk.injEq, Prod.exists] at h
  · obtain ⟨_, h, rfl, rfl⟩ := h
    exact fun _ _ h => nomatch h
  · obtain ⟨_, _, h, rfl, rfl⟩ := h
    unfold Pair.instantiate at h
    simp only [bind_eq_ok, pure_eq_ok, Prod.mk.injEq] at h
    obtain ⟨_, _, _, _, _, _, rfl, rfl⟩ := h
    intro src sm hsm
    simp only [frames, List.map_cons, List.map_nil, List.mem_singleton, Frame.msg.injEq] at hsm
    obtain ⟨_, rfl⟩ := hsm
    exact fun _ h => nomatch h
  · obtain ⟨_, _, h, rfl, rfl⟩ := h
    unfold Factory.instantiate at h
    simp only [bind_eq_ok, pure_eq_ok, Prod.mk.injEq] at h
    obtain ⟨_, _, rfl, rfl⟩ := h
    exact fun _ _ h => nomatch h
  · obtain ⟨_, _, h, rfl, rfl⟩ := h
    unfold Router.instantiate at h
    simp only [bind_eq_ok, pure_eq_ok, Prod.mk.injEq] at h
    obtain ⟨_, _, rfl, rfl⟩ := h
    exact fun _ _ h => nomatch h
  · exact absurd rfl hk
  · cases h

/-- The payload in the message that a frame delivers. -/
def given : Frame → Option HookMsg
  | .msg _ ⟨.exec _ m _, _⟩ => payloadOf m
  | _ => none

theorem step_authored {c : Chain} {adv : Adv} {n : Nat} {w w' : World} {f : Frame} {fs : List Frame} (h : StepI c adv n w f w' fs)
    (hf : ¬ RunsForeign c w f) : ∀ src sm, .msg src sm ∈ fs → Authored (given f) sm.msg := by
  intro src sm hg
  cases h with
  | bank _ _ _ _ _ _ _ _ hm => exact (Wire.no_reply hg).elim
  | token sender _ m _ _ me w1 admin s s' r _ hm hr hc hx => exact token_authored hx _ (Wire.mem_frames hg)
  | pair sender _ m _ _ me w1 admin s s' r _ hm hr hc hx => exact pair_authored hx _ _ (Wire.mem_frames hg)
  | factory sender _ m _ _ me w1 admin s s' r _ hm hr hc hx => exact factory_authored hx _ _ (Wire.mem_frames hg)
  | router sender _ m _ _ me w1 admin s s' r _ hm hr hc hx => exact router_authored hx _ _ (Wire.mem_frames hg)
  | other _ t _ _ _ me _ admin _ hme hm hc => exact absurd ⟨me, admin, hme, hc⟩ hf
  | inst sender admin codeId m funds id k adm w1 s fs hk hadm hnew hm hx =>
    rcases List.mem_append.mp hg with hg | hg
    · refine inst_authored hx ?_ src sm hg
      rintro rfl
      exact hf hk
    · exact (Wire.no_reply hg).elim
  | migrate sender _ _ _ k me s _ _ hc => exact (Wire.no_reply hg).elim
  | admin sender _ _ _ adm me s _ hc _ => exact (Wire.no_reply hg).elim
  | replyPair me _ _ admin s s' r hc hx =>
    simp only [Pair.reply, bind_eq_ok, pure_eq_ok, Prod.mk.injEq] at hx
    obtain ⟨_, _, _, _, rfl, rfl⟩ := hx
    cases hg
  | replyFactory me _ _ admin s s' r hc hx =>
    obtain ⟨_, _, _, _, _, _, _, _, _, _, rfl, _⟩ := Factory.reply_inv hx
    cases hg
  | replyOther me _ _ admin _ hc => exact absurd ⟨admin, hc⟩ hf

end Codec

/-! ## C83 -/

open Codec

/-- **C83**, reading: what the model says of a message holds of the bytes on the wire. Whichever contract is called with them, and in
whatever state, it succeeds with the same result as in the model, where the contract is handed the one message that the bytes stand
for, whoever reads them. -/
theorem C83_delivered (c : Chain) (adv : Adv) (n : Nat) (w : World) (self sender : Addr) (funds : List Coin) (b : Bytes)
    (r : World × List Frame) :
    callBytes c adv n w self sender funds b = .ok r ↔ callExecute c adv n w self sender funds (classify b) = .ok r := by
  have hr : (classify b).inRange = true := fits_inRange (classify_wellFormed b).fits
  have e : callExecute c adv n w self sender funds (classify b) =
      (match w.contracts self with
      | none => .error .notFound
      | some ⟨admin, .token s⟩ => do
        let (s', r) ← Token.execute c.api w.block s sender (classify b)
        return (w.setState self admin (.token s'), frames self r)
      | some ⟨admin, .pair s⟩ => do
        let (s', r) ← Pair.execute c.api (querier c (adv.query n) w) self s sender funds (classify b)
        return (w.setState self admin (.pair s'), frames self r)
      | some ⟨admin, .factory s⟩ => do
        let (s', r) ← Factory.execute c.api (querier c (adv.query n) w) self s sender (classify b)
        return (w.setState self admin (.factory s'), frames self r)
      | some ⟨admin, .router s⟩ => do
        let (s', r) ← Router.execute c.api (querier c (adv.query n) w) self s sender (classify b)
        return (w.setState self admin (.router s'), frames self r)
      | some ⟨_, .other⟩ => do
        let ms ← adv.act n self
        return (w, ms.map (Frame.msg self))) := by
    unfold callExecute
    rw [hr]
    rfl
  rw [e]
  unfold callBytes
  cases hc : w.contracts self with
  | none => exact Iff.rfl
  | some x =>
    obtain ⟨admin, st⟩ := x
    cases st with
    | token s => exact deliver (k := .token) (Token.execute c.api w.block s sender) _ r (fun _ _ h => token_interface h) (fun _ _ _ => rfl)
    | pair s => exact deliver (k := .pair) (Pair.execute c.api _ self s sender funds) _ r (fun _ _ h => pair_interface h) (fun _ _ _ => pair_payload ..)
    | factory s => exact deliver (k := .factory) (Factory.execute c.api _ self s sender) _ r (fun _ _ h => factory_interface h) (fun _ _ _ => rfl)
    | router s => exact deliver (k := .router) (Router.execute c.api _ self s sender) _ r (fun _ _ h => router_interface h) (fun _ _ _ => router_payload ..)
    | other => exact Iff.rfl

/-- **C83**, writing: every well-formed message is read back from its text. -/
theorem C83_roundtrip (m : ExecMsg) (hm : WellFormed m) : classify (writeExec m) = m := classify_write hm

/-- **C83**, exactly: the messages that bytes can stand for are the well-formed ones. -/
theorem C83_image (m : ExecMsg) : (∃ b, classify b = m) ↔ WellFormed m :=
  ⟨by rintro ⟨b, rfl⟩; exact classify_wellFormed b, fun h => ⟨_, classify_write h⟩⟩

/-- **C83**, the two together: a well-formed message handed over in memory and the same message sent as text have the same effect. -/
theorem C83_text (c : Chain) (adv : Adv) (n : Nat) (w : World) (self sender : Addr) (funds : List Coin) (m : ExecMsg) (hm : WellFormed m)
    (r : World × List Frame) :
    callBytes c adv n w self sender funds (writeExec m) = .ok r ↔ callExecute c adv n w self sender funds m = .ok r := by
  rw [C83_delivered, classify_write hm]

/-- **C83**, instantiation: the same for a new contract. -/
theorem C83_inst_delivered (c : Chain) (adv : Adv) (n : Nat) (self sender : Addr) (k : Kind) (b : Bytes) (r : CState × List Frame) :
    callInstBytes c adv n self sender k b = .ok r ↔ callInstantiate c adv n self sender k (classifyInst b) = .ok r := by
  have hr : (classifyInst b).inRange = true := Wire.inst_fits.mp (classifyInst_wellFormed b).fits
  have hc : k ≠ .other → (∃ m, readInst k b = some m ∧ classifyInst b = m ∧ InstOf k m) ∨ (readInst k b = none ∧ ¬ InstOf k (classifyInst b)) := by
    intro _
    cases h : readInst k b with
    | some m => exact .inl ⟨m, rfl, readInst_classify h, (readInst_inv h).1⟩
    | none => exact .inr ⟨rfl, fun hi => by rw [classifyInst_read hi] at h; cases h⟩
  unfold callInstantiate
  rw [hr]
  cases k with
  | other => exact Iff.rfl
  | _ =>
    rcases hc (fun h => nomatch h) with ⟨m, h1, h2, h3⟩ | ⟨h1, h2⟩
    · rw [h2]
      unfold callInstBytes
      dsimp only
      rw [h1]
      cases m <;> first
        | exact absurd h3 (fun h => h)
        | exact Iff.rfl
    · unfold callInstBytes
      dsimp only
      rw [h1]
      revert h2
      generalize classifyInst b = m
      intro h2
      cases m <;> first
        | exact absurd trivial h2
        | exact ⟨fun h => (nomatch h), fun h => (nomatch h)⟩

/-- **C83**, instantiation: every well-formed instantiate message is read back from its text, and these are all that can be read. -/
theorem C83_inst_image (m : InstMsg) : (WellFormedInst m → classifyInst (writeInst m) = m) ∧ ((∃ b, classifyInst b = m) ↔ WellFormedInst m) :=
  ⟨classifyInst_write, by rintro ⟨b, rfl⟩; exact classifyInst_wellFormed b, fun h => ⟨_, classifyInst_write h⟩⟩

/-- **C83**, closure: in every history, when the message that one of the four contracts handles was read from text, everything it sends
can be written as text and is read back unchanged. -/
theorem C83_sent {c : Chain} {u w : World} (hu : Reachable c u) {tr : List (World × Frame)} (hh : Hist c u tr w) {v : World} {f : Frame}
    (hv : (v, f) ∈ tr) (hf : ¬ RunsForeign c v f) (hw : ∀ src sm, f = .msg src sm → OnWire sm.msg) {adv : Adv} {n : Nat} {v' : World}
    {fs : List Frame} (hs : step c adv n v f = .ok (v', fs)) {src : Addr} {sm : SubMsg} (hm : .msg src sm ∈ fs) :
    OnWire sm.msg ∧ (∀ t m l, sm.msg = .exec t m l → classify (writeExec m) = m) ∧
      ∀ ad code m l, sm.msg = .inst ad code m l → classifyInst (writeInst m) = m := by
  have key : OnWire sm.msg := by
    refine (step_authored (step_inv hs) hf src sm hm).onWire (C82_sent hu hh hv hf hs hm) fun x hx => ?_
    cases f with
    | reply a i o => cases hx
    | msg s g =>
      have := hw s g rfl
      obtain ⟨cm, id⟩ := g
      cases cm with
      | exec t m l =>
        have hx : payloadOf m = some x := hx
        have hm : WellFormed m := this
        refine ⟨payload_plain hm hx, ?_⟩
        have hfit := hm.fits
        rw [wireNumbers, Wire.fitsAll_append, Wire.fitsAll_append, hx] at hfit
        simpa using hfit.1.2
      | _ => cases hx
  refine ⟨key, fun t m l e => ?_, fun ad code m l e => ?_⟩
  · rw [e] at key; exact classify_write key
  · rw [e] at key; exact classifyInst_write key

/-- **C83**, interfaces: a contract reads messages of its own interface only, and two contracts read the same bytes only when they are
a `receive` for the pair and the router. -/
theorem C83_shared {k k' : Kind} {b : Bytes} {m m' : ExecMsg} (h : readExec k b = some m) (h' : readExec k' b = some m') :
    InInterface k m ∧ (k = k' ∨ ((k = .pair ∧ k' = .router ∨ k = .router ∧ k' = .pair) ∧ ∃ s a p p', m = .receive s a p ∧ m' = .receive s a p')) := by
  refine ⟨read_interface h, ?_⟩
  by_cases hk : k = k'
  · exact .inl hk
  · have hi := read_interface h
    have hi' := read_interface h'
    refine .inr ?_
    rcases read_classify h with ⟨s, a, p, rfl, e⟩ | ⟨hn, e⟩
    · rcases read_classify h' with ⟨s', a', p', rfl, e'⟩ | ⟨hn', e'⟩
      · rw [e] at e'
        injection e' with e1 e2 _
        subst e1
        subst e2
        have hj : InInterface k (.receive s a (payFor k' p')) := by cases k <;> exact hi
        exact ⟨(interface_unique hj hi' hk).1, s, a, _, _, rfl, rfl⟩
      · exact absurd (e'.symm.trans e) (hn' _ _ _)
    · rcases read_classify h' with ⟨s', a', p', rfl, e'⟩ | ⟨hn', e'⟩
      · exact absurd (e.symm.trans e') (hn _ _ _)
      · rw [e] at e'
        subst e'
        obtain ⟨_, s, a, x, e⟩ := interface_unique hi hi' hk
        exact absurd e (hn s a x)

/-- **C83**, the router's hop with native coins (cf. C25): the bytes it sends to the pair are not a message of any contract. -/
theorem C83_direct (p s : Option Nat) (t : Option Str) (k : Kind) : readExec k (writeExec (.swapDirect p s t)) = none := by
  rw [readExec_eq, show writeExec (.swapDirect p s t) = (swapJ p s t).print from rfl, Json.parse_print]
  cases k <;> rfl

/-! ### Concrete texts -/

/-- Fields in any order, white space anywhere. -/
example : readExec .token (asc "{ \"transfer\" : {\"amount\": \"5\", \"recipient\":\"bob\"} }") = some (.transfer (asc "bob") 5) := by
  decide +kernel

/-- What `to_binary` writes. -/
example : writeExec (.transfer (asc "bob") 5) = asc "{\"transfer\":{\"recipient\":\"bob\",\"amount\":\"5\"}}" := by decide +kernel

/-- An optional field left out is as good as `null`. -/
example : readExec .token (asc "{\"update_minter\":{}}") = some (.updateMinter none) := by decide +kernel
example : writeExec (.updateMinter none) = asc "{\"update_minter\":{\"new_minter\":null}}" := by decide +kernel

/-- Refused: an unknown field, a field twice, two variants, an amount that is a number, an amount of `2^128`, a missing field, a text
that goes on. -/
example : ∀ b ∈ [asc "{\"transfer\":{\"recipient\":\"bob\",\"amount\":\"5\",\"memo\":\"\"}}",
      asc "{\"transfer\":{\"recipient\":\"bob\",\"recipient\":\"bob\",\"amount\":\"5\"}}",
      asc "{\"transfer\":{\"recipient\":\"bob\",\"amount\":\"5\"},\"burn\":{\"amount\":\"5\"}}",
      asc "{\"transfer\":{\"recipient\":\"bob\",\"amount\":5}}",
      asc "{\"burn\":{\"amount\":\"340282366920938463463374607431768211456\"}}",
      asc "{\"transfer\":{\"recipient\":\"bob\"}}",
      asc "{\"burn\":{\"amount\":\"5\"}}x"], readExec .token b = none := by decide +kernel

/-- A payload: `{"swap":{}}` in base64. The pair reads a swap, the router, given the same bytes, nothing it knows. -/
def swapText : Bytes := asc "{\"receive\":{\"sender\":\"bob\",\"amount\":\"7\",\"msg\":\"eyJzd2FwIjp7fX0=\"}}"

example : readExec .pair swapText = some (.receive (asc "bob") 7 (.swap none none none)) := by decide +kernel
example : readExec .router swapText = some (.receive (asc "bob") 7 (.raw (asc "{\"swap\":{}}"))) := by decide +kernel
example : classify swapText = .receive (asc "bob") 7 (.swap none none none) := by decide +kernel
example : readExec .token swapText = none ∧ readExec .factory swapText = none := by decide +kernel

/-- A well-formed message with a price, a spread and mere bytes as payload. -/
example : WellFormed (.send (asc "p") 3 (.raw (asc "hello"))) ∧ WellFormed (.receive (asc "p") 3 (.swap (some 5) (some (10 ^ 16)) none)) := by
  refine ⟨⟨?_, ?_, fun _ h => nomatch h⟩, ⟨?_, fun _ h => (nomatch h), fun _ h => nomatch h⟩⟩
  · intro e he
    simp only [wireNumbers, execNumbers, payloadOf, expiryOf, hookNumbers, Option.toList_some, Option.toList_none, List.flatMap_cons,
      List.flatMap_nil, List.append_nil, List.mem_singleton] at he
    subst he; norm_num
  · intro b hb
    cases hb
    exact ⟨by decide +kernel, by decide +kernel⟩
  · intro e he
    simp only [wireNumbers, execNumbers, payloadOf, expiryOf, hookNumbers, opt128, Option.toList_some, Option.toList_none, List.flatMap_cons,
      List.flatMap_nil, List.append_nil, List.mem_cons, List.mem_append, List.not_mem_nil, or_false, List.map_cons, List.map_nil] at he
    rcases he with rfl | rfl | rfl <;> norm_num

/-- The instantiate message of the factory. -/
example : readInst .factory (asc "{\"pair_code_id\":2,\"token_code_id\":1}") = some (.factory 2 1) ∧
    readInst .pair (asc "{\"pair_code_id\":2,\"token_code_id\":1}") = none := by decide +kernel

namespace Demo

/-- The user sends the first token of the pool to the pair, as text, with a swap as payload: the call succeeds. -/
example : (val (callBytes chain idle 9 deployed tA user []
    (writeExec (.send pAB 100 (.swap none none none))))).isSome = true := by decide +kernel

/-- The same two-hop route as for C82, now with every message on the wire. -/
example : ∃ u tr w v f v' fs src sm, Reachable chain u ∧ Hist chain u tr w ∧ (v, f) ∈ tr ∧ ¬ RunsForeign chain v f ∧
    (∀ src sm, f = .msg src sm → OnWire sm.msg) ∧ step chain idle 19 v f = .ok (v', fs) ∧ .msg src sm ∈ fs := by
  have h : ((val (step chain idle 19 deployed (.msg user (plain twoHops)))).map fun r => r.2.any fun g => match g with
      | .msg _ _ => true
      | _ => false) = some true := by decide +kernel
  rw [Option.map_eq_some_iff] at h
  obtain ⟨⟨v', fs⟩, h1, h2⟩ := h
  obtain ⟨g, hg, h2⟩ := List.any_eq_true.mp h2
  have hr : ∃ w, runs [twoHops] deployed = .ok w := by
    have : (val (runs [twoHops] deployed)).isSome = true := by decide +kernel
    obtain ⟨w, hw⟩ := Option.isSome_iff_exists.mp this
    exact ⟨w, val_eq hw⟩
  obtain ⟨w, hr⟩ := hr
  cases g with
  | reply => cases h2
  | msg src sm =>
    refine ⟨deployed, _, w, deployed, _, v', fs, src, sm, deployed_reachable, hist_runs hr, ?_, fun hf => ?_, ?_, val_eq h1, hg⟩
    · simp only [traces, trace]
      exact List.mem_cons_self
    · have := runsForeign_iff hf
      revert this
      decide +kernel
    · intro src sm e
      cases e
      have : (match twoHops with
        | .exec _ m _ => decide (∀ e ∈ wireNumbers m, e.2 < 2 ^ e.1) && (match payloadOf m with | some (.raw _) => false | _ => true) &&
            (match m with | .raw _ => false | _ => true)
        | _ => false) = true := by decide +kernel
      show OnWire twoHops
      revert this
      generalize twoHops = m
      intro this
      cases m with
      | exec t m l =>
        simp only [Bool.and_eq_true] at this
        refine ⟨fun e he => of_decide_eq_true this.1.1 e he, fun b hb => ?_, fun b hb => ?_⟩
        · rw [hb] at this; exact absurd this.1.2 (by simp)
        · subst hb; exact absurd this.2 (by simp)
      | _ => cases this

end Demo

end Halo
