import Verif.Lemmas.CodecL2
/-! # Messages each contract reads -/

namespace Halo
open _root_.Halo.Spec
namespace Codec

theorem fits_nil : FitsAll [] := fun _ h => nomatch h
theorem fits_cons {n v : Nat} {l : List (Nat × Nat)} (h : v < 2 ^ n) (hl : FitsAll l) : FitsAll ((n, v) :: l) := by
  intro e he
  rcases List.mem_cons.mp he with rfl | he
  · exact h
  · exact hl e he
theorem fits_append {l m : List (Nat × Nat)} (hl : FitsAll l) (hm : FitsAll m) : FitsAll (l ++ m) := by
  intro e he
  rcases List.mem_append.mp he with he | he
  · exact hl e he
  · exact hm e he
theorem fits_opt128 {o : Option Nat} (h : ∀ n, o = some n → n < B128) : FitsAll (opt128 o) := by
  cases o with
  | none => exact fits_nil
  | some v => exact fits_cons (h v rfl) fits_nil
theorem fits_opt64 {o : Option Nat} (h : ∀ n, o = some n → n < B64) : FitsAll (opt64 o) := by
  cases o with
  | none => exact fits_nil
  | some v => exact fits_cons (h v rfl) fits_nil
theorem fits_expiry {e : Expiration} (h : e.fits) : FitsAll (expiryNumbers e) := by
  cases e with
  | never => exact fits_nil
  | _ => exact fits_cons h fits_nil
theorem fits_one {m : ExecMsg} {a : Nat} (h : a < B128) (hm : wireNumbers m = [(128, a)]) : FitsAll (wireNumbers m) := by
  rw [hm]; exact fits_cons h fits_nil

/-- A message read, with payloads interpreted by `pay`. -/
structure Read (k : Kind) (pay : Bytes → HookMsg) (m : ExecMsg) : Prop where
  shape : InInterface k m
  fits : FitsAll (wireNumbers m)
  payload : ∀ h, payloadOf m = some h → ∃ p, h = pay p

theorem amountOf_lt {m : List (Str × Json)} {n : Nat} (h : amountOf m = some n) : n < B128 := by
  obtain ⟨_, hj⟩ := reqd_inv h
  exact asU128_lt hj

theorem token_read {pay : Bytes → HookMsg} (hpay : ∀ p, FitsAll (hookNumbers (pay p))) {k : Str} {f : Json → Option ExecMsg} {b : Json}
    {m : ExecMsg} (h : (k, f) ∈ tokenCases pay) (hf : f b = some m) : Read .token pay m := by
  simp only [tokenCases, List.mem_cons, Prod.mk.injEq, List.not_mem_nil, or_false] at h
  rcases h with ⟨_, rfl⟩ | ⟨_, rfl⟩ | ⟨_, rfl⟩ | ⟨_, rfl⟩ | ⟨_, rfl⟩ | ⟨_, rfl⟩ | ⟨_, rfl⟩ | ⟨_, rfl⟩ | ⟨_, rfl⟩ | ⟨_, rfl⟩ | ⟨_, rfl⟩ | ⟨_, rfl⟩
  · obtain ⟨_, _, hf⟩ := Option.bind_eq_some_iff.mp hf
    obtain ⟨_, _, hf⟩ := Option.bind_eq_some_iff.mp hf
    obtain ⟨_, ha, hf⟩ := Option.bind_eq_some_iff.mp hf
    cases hf
    exact ⟨trivial, fits_one (amountOf_lt ha) rfl, fun _ h => nomatch h⟩
  · obtain ⟨_, _, hf⟩ := Option.bind_eq_some_iff.mp hf
    obtain ⟨_, ha, hf⟩ := Option.bind_eq_some_iff.mp hf
    cases hf
    exact ⟨trivial, fits_one (amountOf_lt ha) rfl, fun _ h => nomatch h⟩
  · obtain ⟨_, _, hf⟩ := Option.bind_eq_some_iff.mp hf
    obtain ⟨_, _, hf⟩ := Option.bind_eq_some_iff.mp hf
    obtain ⟨_, ha, hf⟩ := Option.bind_eq_some_iff.mp hf
    obtain ⟨p, _, hf⟩ := Option.bind_eq_some_iff.mp hf
    cases hf
    refine ⟨trivial, ?_, fun h e => by cases e; exact ⟨p, rfl⟩⟩
    rw [show ∀ (t : Str) a, wireNumbers (.send t a (pay p)) = (128, a) :: hookNumbers (pay p) from fun t a => by simp [wireNumbers, execNumbers, payloadOf, expiryOf]]
    exact fits_cons (amountOf_lt ha) (hpay p)
  · obtain ⟨_, _, hf⟩ := Option.bind_eq_some_iff.mp hf
    obtain ⟨_, _, hf⟩ := Option.bind_eq_some_iff.mp hf
    obtain ⟨_, ha, hf⟩ := Option.bind_eq_some_iff.mp hf
    obtain ⟨e, he, hf⟩ := Option.bind_eq_some_iff.mp hf
    cases hf
    refine ⟨trivial, ?_, fun _ h => nomatch h⟩
    cases e with
    | none => exact fits_one (amountOf_lt ha) rfl
    | some e =>
      obtain ⟨_, hj⟩ := optl_inv he rfl
      exact fits_append (fits_append (fits_cons (amountOf_lt ha) fits_nil) fits_nil) (by
        show FitsAll (expiryNumbers e ++ []); exact fits_append (fits_expiry (asExpiration_fits hj)) fits_nil)
  · obtain ⟨_, _, hf⟩ := Option.bind_eq_some_iff.mp hf
    obtain ⟨_, _, hf⟩ := Option.bind_eq_some_iff.mp hf
    obtain ⟨_, ha, hf⟩ := Option.bind_eq_some_iff.mp hf
    obtain ⟨e, he, hf⟩ := Option.bind_eq_some_iff.mp hf
    cases hf
    refine ⟨trivial, ?_, fun _ h => nomatch h⟩
    cases e with
    | none => exact fits_one (amountOf_lt ha) rfl
    | some e =>
      obtain ⟨_, hj⟩ := optl_inv he rfl
      exact fits_append (fits_append (fits_cons (amountOf_lt ha) fits_nil) fits_nil) (by
        show FitsAll (expiryNumbers e ++ []); exact fits_append (fits_expiry (asExpiration_fits hj)) fits_nil)
  · obtain ⟨_, _, hf⟩ := Option.bind_eq_some_iff.mp hf
    obtain ⟨_, _, hf⟩ := Option.bind_eq_some_iff.mp hf
    obtain ⟨_, _, hf⟩ := Option.bind_eq_some_iff.mp hf
    obtain ⟨_, ha, hf⟩ := Option.bind_eq_some_iff.mp hf
    cases hf
    exact ⟨trivial, fits_one (amountOf_lt ha) rfl, fun _ h => nomatch h⟩
  · obtain ⟨_, _, hf⟩ := Option.bind_eq_some_iff.mp hf
    obtain ⟨_, _, hf⟩ := Option.bind_eq_some_iff.mp hf
    obtain ⟨_, _, hf⟩ := Option.bind_eq_some_iff.mp hf
    obtain ⟨_, ha, hf⟩ := Option.bind_eq_some_iff.mp hf
    obtain ⟨p, _, hf⟩ := Option.bind_eq_some_iff.mp hf
    cases hf
    refine ⟨trivial, ?_, fun h e => by cases e; exact ⟨p, rfl⟩⟩
    rw [show ∀ (o t : Str) a, wireNumbers (.sendFrom o t a (pay p)) = (128, a) :: hookNumbers (pay p) from fun o t a => by simp [wireNumbers, execNumbers, payloadOf, expiryOf]]
    exact fits_cons (amountOf_lt ha) (hpay p)
  · obtain ⟨_, _, hf⟩ := Option.bind_eq_some_iff.mp hf
    obtain ⟨_, _, hf⟩ := Option.bind_eq_some_iff.mp hf
    obtain ⟨_, ha, hf⟩ := Option.bind_eq_some_iff.mp hf
    cases hf
    exact ⟨trivial, fits_one (amountOf_lt ha) rfl, fun _ h => nomatch h⟩
  · obtain ⟨_, _, hf⟩ := Option.bind_eq_some_iff.mp hf
    obtain ⟨_, _, hf⟩ := Option.bind_eq_some_iff.mp hf
    obtain ⟨_, ha, hf⟩ := Option.bind_eq_some_iff.mp hf
    cases hf
    exact ⟨trivial, fits_one (amountOf_lt ha) rfl, fun _ h => nomatch h⟩
  · obtain ⟨_, _, hf⟩ := Option.bind_eq_some_iff.mp hf
    obtain ⟨_, _, hf⟩ := Option.bind_eq_some_iff.mp hf
    cases hf
    exact ⟨trivial, fits_nil, fun _ h => nomatch h⟩
  · obtain ⟨_, _, hf⟩ := Option.bind_eq_some_iff.mp hf
    obtain ⟨_, _, hf⟩ := Option.bind_eq_some_iff.mp hf
    obtain ⟨_, _, hf⟩ := Option.bind_eq_some_iff.mp hf
    obtain ⟨_, _, hf⟩ := Option.bind_eq_some_iff.mp hf
    cases hf
    exact ⟨trivial, fits_nil, fun _ h => nomatch h⟩
  · obtain ⟨_, _, rfl⟩ := Option.map_eq_some_iff.mp hf
    exact ⟨trivial, fits_nil, fun _ h => nomatch h⟩

theorem receive_read {pay : Bytes → HookMsg} {b : Json} {m : ExecMsg} (hf : asReceive pay b = some m) :
    ∃ s a p, a < B128 ∧ ∀ pay', asReceive pay' b = some (.receive s a (pay' p)) := by
  obtain ⟨l, hl, hf⟩ := Option.bind_eq_some_iff.mp hf
  obtain ⟨s, hs, hf⟩ := Option.bind_eq_some_iff.mp hf
  obtain ⟨a, ha, hf⟩ := Option.bind_eq_some_iff.mp hf
  obtain ⟨p, hp, hf⟩ := Option.bind_eq_some_iff.mp hf
  refine ⟨s, a, p, amountOf_lt ha, fun pay' => ?_⟩
  unfold asReceive
  exact bsome hl (bsome hs (bsome ha (bsome hp rfl)))

theorem receive_read' {pay : Bytes → HookMsg} (hpay : ∀ p, FitsAll (hookNumbers (pay p))) {b : Json} {m : ExecMsg}
    (hf : asReceive pay b = some m) {k : Kind} (hk : ∀ s a h, InInterface k (.receive s a h)) : Read k pay m := by
  obtain ⟨s, a, p, ha, h⟩ := receive_read hf
  have := hf.symm.trans (h pay)
  cases this
  refine ⟨hk _ _ _, ?_, fun h e => by cases e; exact ⟨p, rfl⟩⟩
  rw [show wireNumbers (.receive s a (pay p)) = (128, a) :: hookNumbers (pay p) by simp [wireNumbers, execNumbers, payloadOf, expiryOf]]
  exact fits_cons ha (hpay p)

theorem pair_read {pay : Bytes → HookMsg} (hpay : ∀ p, FitsAll (hookNumbers (pay p))) {k : Str} {f : Json → Option ExecMsg} {b : Json}
    {m : ExecMsg} (h : (k, f) ∈ pairCases pay) (hf : f b = some m) : Read .pair pay m := by
  simp only [pairCases, List.mem_cons, Prod.mk.injEq, List.not_mem_nil, or_false] at h
  rcases h with ⟨_, rfl⟩ | ⟨_, rfl⟩
  · exact receive_read' hpay hf fun _ _ _ => trivial
  · obtain ⟨_, _, hf⟩ := Option.bind_eq_some_iff.mp hf
    obtain ⟨as, ha, hf⟩ := Option.bind_eq_some_iff.mp hf
    obtain ⟨_, ht, hf⟩ := Option.bind_eq_some_iff.mp hf
    obtain ⟨_, _, hf⟩ := Option.bind_eq_some_iff.mp hf
    cases hf
    obtain ⟨_, hj⟩ := reqd_inv ha
    obtain ⟨⟨_, h1⟩, _, h2⟩ := asTwo_inv hj
    refine ⟨trivial, ?_, fun _ h => nomatch h⟩
    exact fits_append (fits_append (fits_append (fits_cons (asAsset_lt h1) (fits_cons (asAsset_lt h2) fits_nil))
      (fits_opt128 (optl_lt ht fun _ _ => asDecimal_lt))) fits_nil) fits_nil

theorem router_read {pay : Bytes → HookMsg} (hpay : ∀ p, FitsAll (hookNumbers (pay p))) {k : Str} {f : Json → Option ExecMsg} {b : Json}
    {m : ExecMsg} (h : (k, f) ∈ routerCases pay) (hf : f b = some m) : Read .router pay m := by
  simp only [routerCases, List.mem_cons, Prod.mk.injEq, List.not_mem_nil, or_false] at h
  rcases h with ⟨_, rfl⟩ | ⟨_, rfl⟩ | ⟨_, rfl⟩ | ⟨_, rfl⟩
  · exact receive_read' hpay hf fun _ _ _ => trivial
  · obtain ⟨p, hp, rfl⟩ := Option.map_eq_some_iff.mp hf
    refine ⟨trivial, ?_, fun _ h => nomatch h⟩
    exact fits_append (fits_append (fits_opt128 (operationsFields_inv hp)) fits_nil) fits_nil
  · obtain ⟨_, _, hf⟩ := Option.bind_eq_some_iff.mp hf
    obtain ⟨_, _, hf⟩ := Option.bind_eq_some_iff.mp hf
    obtain ⟨_, _, hf⟩ := Option.bind_eq_some_iff.mp hf
    cases hf
    exact ⟨trivial, fits_nil, fun _ h => nomatch h⟩
  · obtain ⟨_, _, hf⟩ := Option.bind_eq_some_iff.mp hf
    obtain ⟨_, _, hf⟩ := Option.bind_eq_some_iff.mp hf
    obtain ⟨_, h1, hf⟩ := Option.bind_eq_some_iff.mp hf
    obtain ⟨_, h2, hf⟩ := Option.bind_eq_some_iff.mp hf
    obtain ⟨_, _, hf⟩ := Option.bind_eq_some_iff.mp hf
    cases hf
    obtain ⟨_, h1⟩ := reqd_inv h1
    obtain ⟨_, h2⟩ := reqd_inv h2
    exact ⟨trivial, fits_append (fits_append (fits_cons (asU128_lt h1) (fits_cons (asU128_lt h2) fits_nil)) fits_nil) fits_nil,
      fun _ h => nomatch h⟩

theorem factory_read (pay : Bytes → HookMsg) {k : Str} {f : Json → Option ExecMsg} {b : Json}
    {m : ExecMsg} (h : (k, f) ∈ factoryCases) (hf : f b = some m) : Read .factory pay m := by
  simp only [factoryCases, List.mem_cons, Prod.mk.injEq, List.not_mem_nil, or_false] at h
  rcases h with ⟨_, rfl⟩ | ⟨_, rfl⟩ | ⟨_, rfl⟩ | ⟨_, rfl⟩
  · obtain ⟨_, _, hf⟩ := Option.bind_eq_some_iff.mp hf
    obtain ⟨_, _, hf⟩ := Option.bind_eq_some_iff.mp hf
    obtain ⟨_, h1, hf⟩ := Option.bind_eq_some_iff.mp hf
    obtain ⟨_, h2, hf⟩ := Option.bind_eq_some_iff.mp hf
    cases hf
    exact ⟨trivial, fits_append (fits_append (fits_append (fits_opt64 (optl_lt h1 fun _ _ => asNum_lt))
      (fits_opt64 (optl_lt h2 fun _ _ => asNum_lt))) fits_nil) fits_nil, fun _ h => nomatch h⟩
  · obtain ⟨_, _, hf⟩ := Option.bind_eq_some_iff.mp hf
    obtain ⟨_, _, hf⟩ := Option.bind_eq_some_iff.mp hf
    obtain ⟨_, h1, hf⟩ := Option.bind_eq_some_iff.mp hf
    cases hf
    obtain ⟨_, h1⟩ := reqd_inv h1
    have := asRequirements_lt h1
    exact ⟨trivial, fits_append (fits_append (fits_cons this.1 (fits_cons this.2 fits_nil)) fits_nil) fits_nil, fun _ h => nomatch h⟩
  · obtain ⟨_, _, hf⟩ := Option.bind_eq_some_iff.mp hf
    obtain ⟨_, _, hf⟩ := Option.bind_eq_some_iff.mp hf
    obtain ⟨_, h1, hf⟩ := Option.bind_eq_some_iff.mp hf
    cases hf
    obtain ⟨_, h1⟩ := reqd_inv h1
    exact ⟨trivial, fits_append (fits_append (fits_cons (asNum_lt h1) fits_nil) fits_nil) fits_nil, fun _ h => nomatch h⟩
  · obtain ⟨_, _, hf⟩ := Option.bind_eq_some_iff.mp hf
    obtain ⟨_, _, hf⟩ := Option.bind_eq_some_iff.mp hf
    obtain ⟨_, h1, hf⟩ := Option.bind_eq_some_iff.mp hf
    cases hf
    exact ⟨trivial, fits_append (fits_append (fits_opt64 (optl_lt h1 fun _ _ => asNum_lt)) fits_nil) fits_nil, fun _ h => nomatch h⟩

end Codec
end Halo
