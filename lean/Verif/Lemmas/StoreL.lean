import Verif.StoreChain
import Verif.Lemmas.QueryCodecL3
import Verif.Props.Listing
import Verif.Props.Wire
/-! # Raw storage: keys, ranges, reading and writing -/

namespace Halo
namespace StoreL

/-! ## Keys -/

theorem ofNat_eq {m n : Nat} (hm : m < 256) (hn : n < 256) (h : UInt8.ofNat m = UInt8.ofNat n) : m = n := by
  have := congrArg UInt8.toNat h
  rwa [UInt8.toNat_ofNat', UInt8.toNat_ofNat', Nat.mod_eq_of_lt hm, Nat.mod_eq_of_lt hn] at this

theorem len16_inj {m n : Nat} (hm : m ≤ 0xFFFF) (hn : n ≤ 0xFFFF) (h : len16 m = len16 n) : m = n := by
  injection h with h1 h2
  injection h2 with h2 _
  have a := ofNat_eq (by omega) (by omega) h1
  have b := ofNat_eq (Nat.mod_lt _ (by decide)) (Nat.mod_lt _ (by decide)) h2
  omega

theorem lengthed_inj {p q x y : Bytes} (hp : p.length ≤ 0xFFFF) (hq : q.length ≤ 0xFFFF)
    (h : lengthed p ++ x = lengthed q ++ y) : p = q ∧ x = y := by
  unfold lengthed at h
  rw [List.append_assoc, List.append_assoc] at h
  obtain ⟨h1, h2⟩ := List.append_inj h rfl
  exact List.append_inj h2 (len16_inj hp hq h1)

/-- Where something is stored. -/
inductive Slot where
  | item (ns : Bytes)
  | entry (ns k : Bytes)
  | entry2 (ns a b : Bytes)
  deriving DecidableEq

/-- Under which key. -/
def Slot.key : Slot → Bytes
  | .item ns => ns
  | .entry ns k => mapKey ns k
  | .entry2 ns a b => mapKey2 ns a b

/-- The maps whose keys have two parts. -/
def twoPart (ns : Bytes) : Prop := ns = asc "allowance" ∨ ns = asc "allowance_spender"

/-- The places the contracts use. -/
def Slot.ok : Slot → Prop
  | .item ns => ∃ b t, ns = b :: t ∧ b ≠ 0
  | .entry ns _ => ns.length < 256 ∧ ¬ twoPart ns
  | .entry2 ns a _ => ns.length < 256 ∧ twoPart ns ∧ a.length ≤ 0xFFFF

theorem head_lengthed {ns x : Bytes} (h : ns.length < 256) : ∃ t, lengthed ns ++ x = 0 :: t := by
  refine ⟨UInt8.ofNat (ns.length % 256) :: (ns ++ x), ?_⟩
  have : ns.length / 256 = 0 := Nat.div_eq_of_lt h
  show UInt8.ofNat (ns.length / 256) :: _ = _
  rw [this]; rfl

theorem Slot.key_inj {s t : Slot} (hs : s.ok) (ht : t.ok) (h : s.key = t.key) : s = t := by
  cases s with
  | item ns =>
    obtain ⟨b, r, rfl, hb⟩ := hs
    cases t with
    | item ns' => exact congrArg _ h
    | entry ns' k =>
      obtain ⟨u, hu⟩ := head_lengthed (x := k) ht.1
      exact absurd (List.cons.inj (h.trans hu)).1 hb
    | entry2 ns' k k' =>
      obtain ⟨u, hu⟩ := head_lengthed (x := lengthed k ++ k') ht.1
      exact absurd (List.cons.inj (h.trans hu)).1 hb
  | entry ns k =>
    have h256 : ns.length ≤ 0xFFFF := Nat.le_of_lt (Nat.lt_trans hs.1 (by decide))
    cases t with
    | item ns' =>
      obtain ⟨b, r, rfl, hb⟩ := ht
      obtain ⟨u, hu⟩ := head_lengthed (x := k) hs.1
      exact absurd (List.cons.inj (h.symm.trans hu)).1 hb
    | entry ns' k' =>
      obtain ⟨rfl, rfl⟩ := lengthed_inj h256 (Nat.le_of_lt (Nat.lt_trans ht.1 (by decide))) h
      rfl
    | entry2 ns' a b =>
      obtain ⟨rfl, _⟩ := lengthed_inj h256 (Nat.le_of_lt (Nat.lt_trans ht.1 (by decide))) h
      exact absurd ht.2.1 hs.2
  | entry2 ns a b =>
    have h256 : ns.length ≤ 0xFFFF := Nat.le_of_lt (Nat.lt_trans hs.1 (by decide))
    cases t with
    | item ns' =>
      obtain ⟨c, r, rfl, hb⟩ := ht
      obtain ⟨u, hu⟩ := head_lengthed (x := lengthed a ++ b) hs.1
      exact absurd (List.cons.inj (h.symm.trans hu)).1 hb
    | entry ns' k' =>
      obtain ⟨rfl, _⟩ := lengthed_inj h256 (Nat.le_of_lt (Nat.lt_trans ht.1 (by decide))) h
      exact absurd hs.2.1 ht.2
    | entry2 ns' a' b' =>
      obtain ⟨rfl, h2⟩ := lengthed_inj h256 (Nat.le_of_lt (Nat.lt_trans ht.1 (by decide))) h
      obtain ⟨rfl, rfl⟩ := lengthed_inj hs.2.2 ht.2.2 h2
      rfl

/-! ## What a store holds -/

/-- The store holds exactly these values, in order. -/
structure Holds (σ : Store) (V : Slot → Option Bytes) : Prop where
  sorted : SortedKeys σ
  at_ : ∀ s : Slot, s.ok → σ.get s.key = V s
  only : ∀ e ∈ σ, ∃ s : Slot, s.ok ∧ s.key = e.1
  dom : ∀ s v, V s = some v → s.ok

theorem Holds.congr {σ : Store} {V V' : Slot → Option Bytes} (h : Holds σ V) (hv : ∀ s, V' s = V s) : Holds σ V' := by
  have : V' = V := funext hv
  rwa [this]

theorem Holds.nil : Holds [] fun _ => none :=
  ⟨List.Pairwise.nil, fun _ _ => rfl, fun _ h => (nomatch h), fun _ _ h => (nomatch h)⟩

theorem Holds.set {σ : Store} {V V' : Slot → Option Bytes} (h : Holds σ V) {s : Slot} (hs : s.ok) {v : Bytes}
    (hv : ∀ t, V' t = if t = s then some v else V t) : Holds (σ.set s.key v) V' where
  sorted := h.sorted.smapSet
  at_ t ht := by
    show AMap.get (smapSet s.key v σ) t.key = _
    rw [get_smapSet h.sorted, hv]
    by_cases e : t = s
    · rw [if_pos e, if_pos (congrArg _ e)]
    · rw [if_neg e, if_neg fun h => e (Slot.key_inj ht hs h)]
      exact h.at_ t ht
  only e he := by
    rcases mem_smapSet he with rfl | he
    · exact ⟨s, hs, rfl⟩
    · exact h.only e he
  dom t x ht := by
    rw [hv] at ht
    split at ht
    · next e => exact e ▸ hs
    · exact h.dom t x ht

theorem get_erase_ne {K V : Type} [DecidableEq K] (m : AMap K V) {k k' : K} (h : k' ≠ k) : (m.erase k).get k' = m.get k' := by
  induction m with
  | nil => rfl
  | cons e t ih =>
    obtain ⟨a, b⟩ := e
    unfold AMap.erase at ih ⊢
    rw [List.filter_cons]
    by_cases ha : a = k
    · rw [if_neg (by simp [ha]), ih, AMap.get, if_neg (fun e => h (by rw [← e, ha]))]
    · rw [if_pos (by simp [ha]), AMap.get, AMap.get, ih]

theorem get_erase_self {K V : Type} [DecidableEq K] (m : AMap K V) (k : K) : (m.erase k).get k = none := by
  induction m with
  | nil => rfl
  | cons e t ih =>
    obtain ⟨a, b⟩ := e
    unfold AMap.erase at ih ⊢
    rw [List.filter_cons]
    by_cases ha : a = k
    · rw [if_neg (by simp [ha]), ih]
    · rw [if_pos (by simp [ha]), AMap.get, if_neg ha, ih]

theorem erase_sublist {K V : Type} [DecidableEq K] (m : AMap K V) (k : K) : (m.erase k).Sublist m := List.filter_sublist

theorem Holds.remove {σ : Store} {V V' : Slot → Option Bytes} (h : Holds σ V) {s : Slot} (hs : s.ok)
    (hv : ∀ t, V' t = if t = s then none else V t) : Holds (σ.remove s.key) V' where
  sorted := List.Pairwise.sublist (erase_sublist σ s.key) h.sorted
  at_ t ht := by
    show (AMap.erase σ s.key).get t.key = _
    rw [hv]
    by_cases e : t = s
    · rw [if_pos e, e]; exact get_erase_self _ _
    · rw [if_neg e, get_erase_ne _ fun h => e (Slot.key_inj ht hs h)]
      exact h.at_ t ht
  only e he := h.only e ((erase_sublist σ s.key).subset he)
  dom t x ht := by
    rw [hv] at ht
    split at ht
    · cases ht
    · exact h.dom t x ht

theorem Holds.mem {σ : Store} {V : Slot → Option Bytes} (h : Holds σ V) {k v : Bytes} :
    (k, v) ∈ σ ↔ ∃ s, V s = some v ∧ s.key = k := by
  constructor
  · intro hm
    obtain ⟨s, hs, hk⟩ := h.only _ hm
    have hk : s.key = k := hk
    refine ⟨s, ?_, hk⟩
    rw [← h.at_ s hs, hk]
    exact h.sorted.get_of_mem hm
  · rintro ⟨s, hv, rfl⟩
    refine get_mem (?_ : AMap.get σ s.key = some v)
    exact (h.at_ s (h.dom s v hv)).trans hv

/-! ## Reading -/

theorem mayLoad_at {α : Type} {f : Json → Option α} {σ : Store} {V : Slot → Option Bytes} (h : Holds σ V) {s : Slot} (hs : s.ok)
    {o : Option α} {j : α → Json} (hv : V s = o.map fun x => (j x).print) (hf : ∀ x, o = some x → f (j x) = some x) :
    mayLoadAt f σ s.key = .ok o := by
  unfold mayLoadAt
  rw [h.at_ s hs, hv]
  cases o with
  | none => rfl
  | some x =>
    show (okOr ((Json.parse (j x).print).bind f) .parse >>= _) = _
    rw [Json.parse_print]
    show (okOr (f (j x)) .parse >>= _) = _
    rw [hf x rfl]; rfl

theorem load_at {α : Type} {f : Json → Option α} {σ : Store} {V : Slot → Option Bytes} (h : Holds σ V) {s : Slot} (hs : s.ok)
    {o : Option α} {j : α → Json} (hv : V s = o.map fun x => (j x).print) (hf : ∀ x, o = some x → f (j x) = some x) :
    loadAt f σ s.key = okOr o .notFound := by
  unfold loadAt
  rw [mayLoad_at h hs hv hf]; rfl

theorem load_some {α : Type} {f : Json → Option α} {σ : Store} {V : Slot → Option Bytes} (h : Holds σ V) {s : Slot} (hs : s.ok)
    {x : α} {j : Json} (hv : V s = some j.print) (hf : f j = some x) : loadAt f σ s.key = .ok x :=
  load_at h hs (o := some x) (j := fun _ => j) hv (fun y hy => by cases hy; exact hf)

/-! ## Ranges -/

theorem bLt_prefix (p x y : Bytes) : bLt (p ++ x) (p ++ y) = bLt x y := by
  induction p with
  | nil => rfl
  | cons a t ih =>
    show (if a < a then true else if a < a then false else bLt (t ++ x) (t ++ y)) = _
    rw [if_neg (UInt8.lt_irrefl a), if_neg (UInt8.lt_irrefl a), ih]

/-- Right after `s` comes `s` followed by a zero byte. -/
theorem bLt_next (s k : Bytes) : bLt k (s ++ [0]) = !bLt s k := by
  induction s generalizing k with
  | nil =>
    cases k with
    | nil => rfl
    | cons a t =>
      show (if a < 0 then true else if 0 < a then false else bLt t []) = !true
      rw [if_neg (UInt8.not_lt.mpr (UInt8.zero_le))]
      split
      · rfl
      · cases t <;> rfl
  | cons b s ih =>
    cases k with
    | nil => rfl
    | cons a t =>
      show (if a < b then true else if b < a then false else bLt t (s ++ [0])) = !(if b < a then true else if a < b then false else bLt s t)
      by_cases h1 : a < b
      · rw [if_pos h1, if_neg (UInt8.lt_asymm h1), if_pos h1]; rfl
      · rw [if_neg h1]
        by_cases h2 : b < a
        · rw [if_pos h2, if_pos h2]; rfl
        · rw [if_neg h2, if_neg h2, if_neg h1]; exact ih t

theorem upper_snoc (q : Bytes) {b : UInt8} (hb : b ≠ 255) : upperBound (q ++ [b]) = q ++ [b + 1] := by
  unfold upperBound
  rw [List.reverse_append]
  show (incrRev (b :: q.reverse)).reverse = _
  rw [incrRev, if_neg hb]
  simp

theorem succ_toNat {b : UInt8} (hb : b ≠ 255) : (b + 1).toNat = b.toNat + 1 := by
  have h : b.toNat ≠ 255 := fun h => hb (UInt8.toNat_inj.mp h)
  have := b.toNat_lt
  rw [UInt8.toNat_add]
  exact Nat.mod_eq_of_lt (show b.toNat + 1 < 256 by omega)

/-- The keys between a prefix and its upper bound are those with the prefix. -/
theorem between {q : Bytes} {b : UInt8} (hb : b ≠ 255) {x : Bytes} (h1 : bLt x (q ++ [b]) = false) (h2 : bLt x (q ++ [b + 1]) = true) :
    ∃ k, x = (q ++ [b]) ++ k := by
  induction q generalizing x with
  | nil =>
    cases x with
    | nil => cases h1
    | cons a t =>
      have h1 : (if a < b then true else if b < a then false else bLt t []) = false := h1
      have h2 : (if a < b + 1 then true else if b + 1 < a then false else bLt t []) = true := h2
      have n1 : ¬ a < b := fun h => by rw [if_pos h] at h1; cases h1
      have n2 : a < b + 1 := by
        by_contra hn
        rw [if_neg hn] at h2
        split at h2
        · cases h2
        · cases t <;> cases h2
      have : a = b := by
        apply UInt8.toNat_inj.mp
        rw [UInt8.lt_iff_toNat_lt, succ_toNat hb] at n2
        rw [UInt8.lt_iff_toNat_lt] at n1
        omega
      exact ⟨t, by rw [this]; rfl⟩
  | cons c q ih =>
    cases x with
    | nil => cases h1
    | cons a t =>
      have h1 : (if a < c then true else if c < a then false else bLt t (q ++ [b])) = false := h1
      have h2 : (if a < c then true else if c < a then false else bLt t (q ++ [b + 1])) = true := h2
      have n1 : ¬ a < c := fun h => by rw [if_pos h] at h1; cases h1
      have n2 : ¬ c < a := fun h => by rw [if_neg n1, if_pos h] at h2; cases h2
      rw [if_neg n1, if_neg n2] at h1 h2
      obtain ⟨k, rfl⟩ := ih h1 h2
      have : a = c := by
        apply UInt8.toNat_inj.mp
        rw [UInt8.lt_iff_toNat_lt] at n1 n2
        omega
      exact ⟨k, by rw [this]; rfl⟩

theorem below_upper {q : Bytes} {b : UInt8} (hb : b ≠ 255) (k : Bytes) : bLt ((q ++ [b]) ++ k) (q ++ [b + 1]) = true := by
  rw [List.append_assoc, bLt_prefix]
  show (if b < b + 1 then true else _) = true
  rw [if_pos]
  rw [UInt8.lt_iff_toNat_lt, succ_toNat hb]
  omega

theorem not_below_prefix (p k : Bytes) : bLt (p ++ k) p = false := by
  have := bLt_prefix p k []
  rw [List.append_nil] at this
  rw [this]
  cases k <;> rfl

/-- A prefix that does not end in the byte 255. -/
def Opens (p : Bytes) : Prop := ∃ q b, p = q ++ [b] ∧ b ≠ 255

theorem range_iff {p : Bytes} (hp : Opens p) (start : Option Bytes) (x : Bytes) :
    (!bLt x (match start with | none => p | some s => p ++ (s ++ [0])) && bLt x (upperBound p)) = true ↔
      ∃ k, x = p ++ k ∧ ∀ s, start = some s → bLt s k = true := by
  obtain ⟨q, b, rfl, hb⟩ := hp
  rw [upper_snoc q hb, Bool.and_eq_true, Bool.not_eq_true']
  cases start with
  | none =>
    constructor
    · rintro ⟨h1, h2⟩
      obtain ⟨k, hk⟩ := between hb h1 h2
      exact ⟨k, hk, fun _ h => nomatch h⟩
    · rintro ⟨k, rfl, _⟩
      exact ⟨not_below_prefix _ _, below_upper hb k⟩
  | some s =>
    constructor
    · rintro ⟨h1, h2⟩
      have h0 : bLt x (q ++ [b]) = false := by
        cases hx : bLt x (q ++ [b]) with
        | false => rfl
        | true =>
          have hlt : bLt (q ++ [b]) ((q ++ [b]) ++ (s ++ [0])) = true := by
            cases s with
            | nil => exact bLt_append_self _ _ _
            | cons a t => exact bLt_append_self _ _ _
          rw [bLt_trans hx hlt] at h1
          cases h1
      obtain ⟨k, rfl⟩ := between hb h0 h2
      refine ⟨k, rfl, fun s' hs' => ?_⟩
      cases hs'
      have h1 : bLt (q ++ [b] ++ k) (q ++ [b] ++ (s ++ [0])) = false := h1
      rw [bLt_prefix, bLt_next] at h1
      simpa using h1
    · rintro ⟨k, rfl, h⟩
      refine ⟨?_, below_upper hb k⟩
      show bLt (q ++ [b] ++ k) (q ++ [b] ++ (s ++ [0])) = false
      rw [bLt_prefix, bLt_next, h s rfl]; rfl

theorem mem_under {σ : Store} {p : Bytes} (hp : Opens p) {start : Option Bytes} {k v : Bytes} :
    (k, v) ∈ σ.under p start ↔ (p ++ k, v) ∈ σ ∧ ∀ s, start = some s → bLt s k = true := by
  unfold Store.under Store.range
  simp only [List.mem_map, List.mem_filter, Prod.mk.injEq, Prod.exists]
  constructor
  · rintro ⟨x, u, ⟨hm, hr⟩, hk, rfl⟩
    obtain ⟨k', rfl, hs⟩ := (range_iff hp start x).mp hr
    rw [List.drop_left] at hk
    subst hk
    exact ⟨hm, hs⟩
  · rintro ⟨hm, hs⟩
    exact ⟨p ++ k, v, ⟨hm, (range_iff hp start _).mpr ⟨k, rfl, hs⟩⟩, List.drop_left, rfl⟩

theorem under_sorted {σ : Store} (hσ : SortedKeys σ) {p : Bytes} (hp : Opens p) (start : Option Bytes) : SortedKeys (σ.under p start) := by
  unfold Store.under Store.range SortedKeys
  rw [List.pairwise_map]
  refine List.Pairwise.imp_of_mem ?_ (List.Pairwise.filter _ hσ)
  intro a b ha hb hab
  obtain ⟨ka, hka, _⟩ := (range_iff hp start a.1).mp (List.mem_filter.mp ha).2
  obtain ⟨kb, hkb, _⟩ := (range_iff hp start b.1).mp (List.mem_filter.mp hb).2
  show bLt (a.1.drop p.length) (b.1.drop p.length) = true
  rw [hka, hkb] at hab ⊢
  rw [List.drop_left, List.drop_left]
  rwa [bLt_prefix] at hab

/-- Two sorted lists with the same entries are the same list. -/
theorem sorted_ext {V : Type} {l l' : List (Bytes × V)} (hl : SortedKeys l) (hl' : SortedKeys l') (h : ∀ e, e ∈ l ↔ e ∈ l') : l = l' := by
  have anti : ∀ a b, a ∈ l → b ∈ l' → bLt a.1 b.1 = true → bLt b.1 a.1 = true → a = b := fun a b _ _ h1 h2 => by
    rw [bLt_asymm h1] at h2; cases h2
  have nd : ∀ {m : List (Bytes × V)}, SortedKeys m → m.Nodup := fun hm =>
    List.Pairwise.imp (fun {a b} hab e => by rw [e, bLt_irrefl] at hab; cases hab) hm
  exact ((List.perm_ext_iff_of_nodup (nd hl) (nd hl')).mpr h).eq_of_pairwise anti hl hl'

end StoreL
end Halo

namespace Halo
namespace StoreL

/-! ## Two computations that agree -/

/-- Two computations agree: results are related and errors are the same. If `L` (an address is too long for a key, or empty), the first may instead
panic whatever the second does. -/
inductive Sim (L : Prop) {α β : Type} (H : α → β → Prop) : R α → R β → Prop
  | ok {a : α} {b : β} (h : H a b) : Sim L H (.ok a) (.ok b)
  | error (e : Err) : Sim L H (.error e) (.error e)
  | long (h : L) (p : Panic) (y : R β) : Sim L H (.error (.panic p)) y

variable {L : Prop}

theorem Sim.bind {α β α' β' : Type} {H : α → β → Prop} {H' : α' → β' → Prop} {x : R α} {y : R β} {f : α → R α'} {g : β → R β'}
    (h : Sim L H x y) (k : ∀ a b, H a b → Sim L H' (f a) (g b)) : Sim L H' (x >>= f) (y >>= g) := by
  cases h with
  | ok h => exact k _ _ h
  | error e => exact .error e
  | long h p y => exact .long h p _

/-- The same first step. -/
theorem Sim.same {α α' β' : Type} {H' : α' → β' → Prop} {x : R α} {f : α → R α'} {g : α → R β'}
    (k : ∀ a, x = .ok a → Sim L H' (f a) (g a)) : Sim L H' (x >>= f) (x >>= g) := by
  cases x with
  | ok a => exact k a rfl
  | error e => exact .error e

theorem Sim.mono {α β : Type} {H H' : α → β → Prop} {x : R α} {y : R β} (h : Sim L H x y) (k : ∀ a b, H a b → H' a b) : Sim L H' x y := by
  cases h with
  | ok h => exact .ok (k _ _ h)
  | error e => exact .error e
  | long h p y => exact .long h p _

theorem Sim.rfl' {α : Type} (x : R α) : Sim L Eq x x := by
  cases x with
  | ok a => exact .ok rfl
  | error e => exact .error e

theorem Sim.eq {α : Type} {x y : R α} (h : Sim L Eq x y) : x = y ∨ L ∧ ∃ p, x = .error (.panic p) := by
  cases h with
  | ok h => exact .inl (by rw [h])
  | error e => exact .inl rfl
  | long h p y => exact .inr ⟨h, p, rfl⟩

theorem Sim.left {α β : Type} {H : α → β → Prop} {x : R α} {y : R β} (h : Sim L H x y) {a : α} (hx : x = .ok a) : ∃ b, y = .ok b ∧ H a b := by
  cases h with
  | ok h => cases hx; exact ⟨_, rfl, h⟩
  | error e => cases hx
  | long h p y => cases hx

theorem Sim.right {α β : Type} {H : α → β → Prop} {x : R α} {y : R β} (h : Sim L H x y) {b : β} (hy : y = .ok b) :
    (∃ a, x = .ok a ∧ H a b) ∨ L ∧ ∃ p, x = .error (.panic p) := by
  cases h with
  | ok h => cases hy; exact .inl ⟨_, rfl, h⟩
  | error e => cases hy
  | long h p y => exact .inr ⟨h, p, rfl⟩

theorem Sim.fails {α β : Type} {H : α → β → Prop} {x : R α} {y : R β} (h : Sim L H x y) {e : Err} (hy : y = .error e) :
    x = .error e ∨ L ∧ ∃ p, x = .error (.panic p) := by
  cases h with
  | ok h => cases hy
  | error e => cases hy; exact .inl rfl
  | long h p y => exact .inr ⟨h, p, rfl⟩

/-- What also holds of the result on the right. -/
theorem Sim.and {α β : Type} {H : α → β → Prop} {K : β → Prop} {x : R α} {y : R β} (h : Sim L H x y) (k : ∀ b, y = .ok b → K b) :
    Sim L (fun a b => H a b ∧ K b) x y := by
  cases h with
  | ok h => exact .ok ⟨h, k _ rfl⟩
  | error e => exact .error e
  | long h p y => exact .long h p _

end StoreL
end Halo
