import Verif.Lemmas.ReplyL
import Verif.Spec.Reply
import Verif.Props.Store
/-! # What a reply announces (C92) -/

namespace Halo
open Spec

theorem varint_text (n : Nat) : Varint (varint n) n := by
  induction n using Nat.strongRecOn with
  | ind n ih =>
    by_cases h : n < 128
    · rw [varint_lt h]
      have := Varint.last (UInt8.ofNat n) (by rw [ofNat_low h]; exact h)
      rwa [ofNat_low h] at this
    · rw [varint_ge h]
      have := Varint.more (UInt8.ofNat (128 + n % 128)) (by rw [ofNat_high]; omega) (ih (n / 128) (by omega))
      rw [ofNat_high] at this
      have e : 128 + n % 128 - 128 + 128 * (n / 128) = n := by omega
      rwa [e] at this

theorem parseVarint_iff : ∀ (k : Nat) (b : Bytes) (n : Nat) (t : Bytes),
    parseVarint k b = some (n, t) ↔ ∃ l, Varint l n ∧ l.length ≤ k ∧ b = l ++ t
  | 0, b, n, t => by
    rw [parseVarint]
    constructor
    · exact fun h => nomatch h
    rintro ⟨l, hl, h0, _⟩
    cases hl <;> simp at h0
  | k + 1, [], n, t => by
    rw [parseVarint]
    constructor
    · exact fun h => nomatch h
    rintro ⟨l, hl, _, e⟩
    cases hl <;> cases e
  | k + 1, x :: s, n, t => by
    rw [parseVarint]
    have hx := x.toNat_lt
    by_cases h : x.toNat < 128
    · rw [if_pos h]
      constructor
      · intro e
        cases e
        exact ⟨[x], .last x h, by simp, rfl⟩
      · rintro ⟨l, hl, _, e⟩
        cases hl with
        | last b hb => cases e; rfl
        | more b hb ht => cases e; omega
    · rw [if_neg h]
      simp only [Option.bind_eq_bind, Option.pure_def, Option.bind_eq_some_iff, Option.some.injEq, Prod.mk.injEq, Prod.exists]
      constructor
      · rintro ⟨r, t', hr, rfl, rfl⟩
        obtain ⟨l, hl, h1, rfl⟩ := (parseVarint_iff k s r t').mp hr
        refine ⟨x :: l, ?_, by simpa using h1, rfl⟩
        have := Varint.more x (by omega) hl
        have e : x.toNat - 128 + 128 * r = x.toNat % 128 + 128 * r := by omega
        rwa [e] at this
      · rintro ⟨l, hl, h1, e⟩
        cases hl with
        | last b hb => cases e; omega
        | more b hb ht =>
          cases e
          refine ⟨_, _, (parseVarint_iff k _ _ t).mpr ⟨_, ht, by simpa using h1, rfl⟩, ?_, rfl⟩
          omega

theorem parseField_iff (k : Nat) (b v t : Bytes) :
    parseLengthPrefixed k b = some (v, t) ↔ (b = [] ∧ v = [] ∧ t = []) ∨ ∃ x, FieldText k x v ∧ b = x ++ t := by
  cases b with
  | nil =>
    rw [parseLengthPrefixed]
    constructor
    · intro h; cases h; exact .inl ⟨rfl, rfl, rfl⟩
    · rintro (⟨_, rfl, rfl⟩ | ⟨x, ⟨tag, l, _, _, _, rfl⟩, e⟩)
      · rfl
      · cases e
  | cons x s =>
    rw [parseLengthPrefixed]
    have hx := x.toNat_lt
    constructor
    · intro h
      split at h
      · cases h
      split at h
      · cases h
      simp only [Option.bind_eq_bind, Option.bind_eq_some_iff, Prod.exists] at h
      obtain ⟨n, r, hr, h⟩ := h
      split at h
      · cases h
      simp only [Option.pure_def, Option.some.injEq, Prod.mk.injEq] at h
      obtain ⟨rfl, rfl⟩ := h
      obtain ⟨l, hl, h9, rfl⟩ := (parseVarint_iff _ _ _ _).mp hr
      refine .inr ⟨x :: (l ++ r.take n), ⟨x, l, by omega, ?_, h9, rfl⟩, ?_⟩
      · rw [List.length_take, Nat.min_eq_left (by omega)]
        exact hl
      · rw [List.cons_append, List.append_assoc, List.take_append_drop]
    · rintro (⟨e, _⟩ | ⟨y, ⟨tag, l, htag, hl, h9, rfl⟩, e⟩)
      · cases e
      · cases e
        rw [if_neg (by omega), if_neg (by omega), show List.append (l ++ v) t = l ++ (v ++ t) from List.append_assoc _ _ _, (parseVarint_iff varintMaxBytes _ _ _).mpr ⟨l, hl, h9, rfl⟩]
        simp

/-- **C92.** The reader in `cw-utils` finds address `a` and data `d` exactly in the bytes that announce them. -/
theorem C92_exact (b : Bytes) (a : Str) (d : Bytes) : parseInstantiateResponse b = some (a, d) ↔ Announces b a d := by
  unfold parseInstantiateResponse Announces
  simp only [Option.bind_eq_bind, Option.pure_def, Option.bind_eq_some_iff, Option.some.injEq, Prod.mk.injEq, Prod.exists, parseField_iff]
  constructor
  · rintro ⟨a', r, h1, d', z, h2, rfl, rfl⟩
    rcases h1 with ⟨rfl, rfl, rfl⟩ | ⟨x, hx, rfl⟩
    · rcases h2 with ⟨_, rfl, _⟩ | ⟨y, ⟨_, _, _, _, _, rfl⟩, e⟩
      · exact .inl ⟨rfl, rfl, rfl⟩
      · cases e
    · rcases h2 with ⟨rfl, rfl, _⟩ | ⟨y, hy, rfl⟩
      · exact .inr (.inl ⟨by rwa [List.append_nil], rfl⟩)
      · exact .inr (.inr ⟨x, y, z, by rw [List.append_assoc], hx, hy⟩)
  · rintro (⟨rfl, rfl, rfl⟩ | ⟨h, rfl⟩ | ⟨x, y, z, rfl, hx, hy⟩)
    · exact ⟨[], [], .inl ⟨rfl, rfl, rfl⟩, [], [], .inl ⟨rfl, rfl, rfl⟩, rfl, rfl⟩
    · exact ⟨a, [], .inr ⟨b, h, (List.append_nil b).symm⟩, [], [], .inl ⟨rfl, rfl, rfl⟩, rfl, rfl⟩
    · exact ⟨a, y ++ z, .inr ⟨x, hx, List.append_assoc _ _ _⟩, d, z, .inr ⟨y, hy, rfl⟩, rfl, rfl⟩

/-- **C92.** The host's message for a new contract announces its address, whatever data the new contract returned. -/
theorem C92_host (a : Str) (d : Bytes) (ha : a ≠ []) (hl : a.length < 2 ^ 63) (hd : d.length < 2 ^ 63) :
    Announces (instantiateResponse a d) a d :=
  (C92_exact _ _ _).mp (response_read ha hl hd)

/-- **C92.** So no bytes announce two addresses, and no two addresses are announced by the same bytes. -/
theorem C92_unambiguous {b : Bytes} {a a' : Str} {d d' : Bytes} (h : Announces b a d) (h' : Announces b a' d') : a = a' ∧ d = d' := by
  rw [← C92_exact] at h h'
  rw [h] at h'
  cases h'
  exact ⟨rfl, rfl⟩

/-- **C92.** A contract that is called with such a reply goes on with that address: a pair stores its canonical form as the LP
token. -/
theorem C92_pair_reply {api : Api} {σ σ' : Store} {a : Str} {b d : Bytes} {r : Response} (hb : Announces b a d)
    (h : Pair.replyS api σ (some b) = .ok (σ', r)) :
    ∃ st lt, loadAt asPairRaw σ Pair.infoKey = .ok st ∧ api.canonicalize a = .ok lt ∧
      σ' = saveAt σ Pair.infoKey (pairRawJ { st with liquidityToken := lt }) := by
  have e : parseReply (some b) = some a := by
    unfold parseReply
    simp only [Option.bind_eq_bind, Option.bind_some, (C92_exact b a d).mpr hb]
    rfl
  simp only [Pair.replyS, e, okOr, bind_eq_ok, pure_eq_ok, Prod.mk.injEq] at h
  obtain ⟨_, h1, st, hst, lt, hlt, rfl, _⟩ := h
  cases h1
  exact ⟨st, lt, hst, hlt, rfl⟩

/-- **C92.** Any other reply is refused by both contracts that take replies. -/
theorem C92_refused {b : Bytes} (hb : ∀ a d, ¬ Announces b a d) (api : Api) (q : Querier) (σ : Store) :
    (∀ r, Pair.replyS api σ (some b) ≠ .ok r) ∧ ∀ r, Factory.replyS api q σ (some b) ≠ .ok r := by
  have e : parseReply (some b) = none := by
    cases h : parseInstantiateResponse b with
    | none => simp [parseReply, h]
    | some x => exact absurd ((C92_exact b x.1 x.2).mp h) (hb _ _)
  constructor
  · intro r h
    simp [Pair.replyS, e, okOr] at h
  · intro r h
    simp only [Factory.replyS, e, okOr, bind_eq_ok] at h
    obtain ⟨_, _, _, h, _⟩ := h
    cases h

/-! A reply for the address `abc` with two bytes of data; the same with a padded length and the tag 14; one with another field
first, which is refused. -/
example : instantiateResponse (asc "abc") [7, 8] = [10, 3, 97, 98, 99, 18, 2, 7, 8] := by simp [instantiateResponse, protoField, varint, asc]
example : Announces [10, 3, 97, 98, 99, 18, 2, 7, 8] (asc "abc") [7, 8] := (C92_exact _ _ _).mp (by decide)
example : Announces [14, 0x83, 0x80, 0, 97, 98, 99] (asc "abc") [] := (C92_exact _ _ _).mp (by decide)
example : ∀ a d, ¬ Announces [18, 2, 7, 8, 10, 3, 97, 98, 99] a d := fun a d h => by
  have := (C92_exact _ _ _).mpr h
  revert this
  have e : parseInstantiateResponse [18, 2, 7, 8, 10, 3, 97, 98, 99] = none := by decide
  rw [e]
  exact fun h => nomatch h

end Halo
