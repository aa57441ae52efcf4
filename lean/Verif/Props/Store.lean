import Verif.Lemmas.StoreLaysL
import Verif.Props.ByteChain
/-! # C88: storage, byte by byte -/

namespace Halo
open StoreL Spec

variable {c : Chain}

theorem short_or (c : Chain) : Short (OddAddress c) c.api := by
  intro a b h
  obtain ⟨rfl, h⟩ := Token.validate_self h
  by_cases hb : b.length ≤ 0xFFFF
  · exact .inl hb
  · exact .inr (.inl ⟨b, h, by omega⟩)

theorem addr_or (c : Chain) (n : Nat) : c.addrOf n ≠ [] ∧ (c.addrOf n).length ≤ 0xFFFF ∨ OddAddress c := by
  by_cases h0 : c.addrOf n = []
  · exact .inr (.inr ⟨n, .inl h0⟩)
  by_cases hb : (c.addrOf n).length ≤ 0xFFFF
  · exact .inl ⟨h0, hb⟩
  · exact .inr (.inr ⟨n, .inr (by omega)⟩)

theorem user_or {u : Addr} (hu : c.IsUser u) : u.length ≤ 0xFFFF ∨ OddAddress c := short_or c u u hu.2

theorem sim_agree {α β : Type} {H H' : α → β → Prop} {x : R α} {y : R β} (h : Sim (OddAddress c) H x y) (k : ∀ a b, H a b → H' a b) :
    Agree c H' x y := by
  cases h with
  | ok h => exact .inl ⟨_, _, rfl, rfl, k _ _ h⟩
  | error e => exact .inr (.inl ⟨e, rfl, rfl⟩)
  | long h p y => exact .inr (.inr ⟨h, p, rfl⟩)

theorem rep_bisimulation (c : Chain) : Bisimulation c fun d w => Rep (OddAddress c) d w ∧ Wire.Typed w := by
  refine ⟨?_, ?_, ?_, ?_, ?_, ?_, ?_⟩
  · intro d w hb hk hn hn' hc hc'
    refine ⟨⟨hb, hn.trans hn'.symm, hk, fun a => ?_, fun a ha => ?_⟩, fun a adm s h => ?_⟩
    · rw [hc, hc']; exact .none
    · rw [hc'] at ha; cases ha
    · rw [hc'] at h; cases h
  · rintro d w ⟨h, _⟩; exact h.onDisk
  · rintro d w v ⟨h, ht⟩ ⟨h', ht'⟩ a x y hx hy; exact h.det h' ht ht' hx hy
  · rintro d w ⟨h, ht⟩ adv gas u m hu
    exact sim_agree (runTx_sim (short_or c) (addr_or c) adv gas h ht (user_or hu) m) fun _ _ h => h
  · rintro d w ⟨h, ht⟩ b; exact ⟨⟨h.bank, h.next, rfl, h.cells, h.short⟩, ht⟩
  · rintro d w ⟨h, ht⟩ b; exact ⟨⟨rfl, h.next, h.block, h.cells, h.short⟩, ht⟩
  · rintro d w ⟨h, ht⟩ he foreign n a b
    refine sim_agree (smart_sim h ht (short_or c) (fun a b hv q => ?_) foreign n a b) fun _ _ h => h
    obtain ⟨rfl, hv⟩ := Token.validate_self hv
    exact he b q hv

/-- **C88**: the contracts over raw storage - keys as `cw-storage-plus` builds them, values as JSON, read back and parsed at every step -
and the contracts with typed storage are two views of one chain: whatever is done, both do the same. -/
theorem C88_bisimulation (c : Chain) : ∃ B, Bisimulation c B := ⟨_, rep_bisimulation c⟩

theorem disk_raw {B : SWorld → World → Prop} (hB : Bisimulation c B) {d : SWorld} (h : DiskReachable c d) : ∃ w, RawReachable c w ∧ B d w := by
  induction h with
  | genesis d hn hc =>
    exact ⟨⟨d.bank, fun _ => none, 0, d.block⟩, .genesis _ ⟨rfl, fun _ => rfl⟩, hB.genesis d _ rfl rfl hn rfl hc fun _ => rfl⟩
  | step d d' _ hs ih =>
    obtain ⟨w, hw, hb⟩ := ih
    cases hs with
    | tx adv gas d d' u m hu h =>
      rcases hB.tx d w hb adv gas u m hu with ⟨x, y, hx, hy, hxy⟩ | ⟨e, hx, _⟩ | ⟨_, p, hx⟩
      · rw [h] at hx
        cases hx
        exact ⟨y, .step w y hw (.tx adv gas w y u m hu hy), hxy⟩
      · rw [h] at hx; cases hx
      · rw [h] at hx; cases hx
    | block d b => exact ⟨_, .step w _ hw (.block w b), hB.block d w hb b⟩
    | env d b h => exact ⟨_, .step w _ hw (.env w b fun x n => by rw [← (hB.shows d w hb).bank]; exact h x n), hB.env d w hb b⟩

theorem raw_disk {B : SWorld → World → Prop} (hB : Bisimulation c B) (hl : ¬ OddAddress c) {w : World} (h : RawReachable c w) :
    ∃ d, DiskReachable c d ∧ B d w := by
  induction h with
  | genesis w hw =>
    exact ⟨⟨w.bank, fun _ => none, 0, w.block⟩, .genesis _ rfl fun _ => rfl, hB.genesis _ w rfl rfl rfl hw.1 (fun _ => rfl) hw.2⟩
  | step w w' _ hs ih =>
    obtain ⟨d, hd, hb⟩ := ih
    cases hs with
    | tx adv gas w w' u m hu h =>
      rcases hB.tx d w hb adv gas u m hu with ⟨x, y, hx, hy, hxy⟩ | ⟨e, _, hy⟩ | ⟨hl', _⟩
      · rw [h] at hy
        cases hy
        exact ⟨x, .step d x hd (.tx adv gas d x u m hu hx), hxy⟩
      · rw [h] at hy; cases hy
      · exact absurd hl' hl
    | block w b => exact ⟨_, .step d _ hd (.block d b), hB.block d w hb b⟩
    | env w b h => exact ⟨_, .step d _ hd (.env d b fun x n => by rw [(hB.shows d w hb).bank]; exact h x n), hB.env d w hb b⟩

/-- **C88**, histories: every state of the chain with raw storage is laid out as the texts and keys say, for some state that the chain with
typed storage can reach; so everything proved of reachable states is a statement about the bytes on disk. -/
theorem C88_reachable {d : SWorld} (h : DiskReachable c d) : ∃ w, Reachable c w ∧ OnDisk d w := by
  obtain ⟨B, hB⟩ := C88_bisimulation c
  obtain ⟨w, hw, hb⟩ := disk_raw hB h
  exact ⟨w, C84_reachable hw, hB.shows d w hb⟩

/-- **C88**, the other direction: if no address is too long for a key or empty, nothing that the chain of bytes with typed storage can reach is
missed. -/
theorem C88_complete (hl : ¬ OddAddress c) {w : World} (h : RawReachable c w) : ∃ d, DiskReachable c d ∧ OnDisk d w := by
  obtain ⟨B, hB⟩ := C88_bisimulation c
  obtain ⟨d, hd, hb⟩ := raw_disk hB hl h
  exact ⟨d, hd, hB.shows d w hb⟩

theorem StoreL.Holds.mem_slot {σ : Store} {V : Slot → Option Bytes} (h : Holds σ V) {s : Slot} (hs : s.ok) (v : Bytes) :
    (s.key, v) ∈ σ ↔ V s = some v := by
  rw [h.mem]
  constructor
  · rintro ⟨t, ht, e⟩
    rwa [← Slot.key_inj (h.dom t v ht) hs e]
  · exact fun hv => ⟨s, hv, rfl⟩

/-- **C88**, the two maps of allowances: in every token the map by owner and the map by spender have the same entries. -/
theorem C88_mirror {d : SWorld} (h : DiskReachable c d) {a : Addr} {x : Cell} (hx : d.cells a = some x) (hk : x.kind = .token) (o p : Addr)
    (ho : o.length ≤ 65535) (hp : p.length ≤ 65535) (v : Bytes) :
    ([0, 9] ++ asc "allowance" ++ (size o ++ o ++ p), v) ∈ x.store ↔ ([0, 17] ++ asc "allowance_spender" ++ (size p ++ p ++ o), v) ∈ x.store := by
  have key : ∃ s, Holds x.store (tokenVal s) := by
    have : ∃ w, Rep (OddAddress c) d w := by
      obtain ⟨w, _, hw, _⟩ := disk_raw (rep_bisimulation c) h
      exact ⟨w, hw⟩
    obtain ⟨w, hw⟩ := this
    have := hw.cells a
    rw [hx] at this
    generalize w.contracts a = y at this
    cases this with
    | some adm h =>
      cases h with
      | token h => exact ⟨_, h⟩
      | _ => cases hk
  obtain ⟨s, hs⟩ := key
  have e1 := hs.mem_slot (allow_ok (p := p) ho) v
  have e2 := hs.mem_slot (spender_ok (p := o) hp) v
  rw [allow_val] at e1
  rw [spender_val] at e2
  have k1 : (Slot.entry2 (asc "allowance") o p).key = [0, 9] ++ asc "allowance" ++ (size o ++ o ++ p) := by
    show mapKey2 _ _ _ = _
    simp only [mapKey2, lengthed, List.append_assoc]; rfl
  have k2 : (Slot.entry2 (asc "allowance_spender") p o).key = [0, 17] ++ asc "allowance_spender" ++ (size p ++ p ++ o) := by
    show mapKey2 _ _ _ = _
    simp only [mapKey2, lengthed, List.append_assoc]; rfl
  rw [k1] at e1
  rw [k2] at e2
  rw [e1, e2]

/-! ### Concrete storage -/

namespace Demo

/-- One transaction of bytes after the other, on a chain with storage as bytes. -/
def diskRuns (c : Chain) : List RawMsg → SWorld → R SWorld
  | [], d => .ok d
  | m :: t, d => do
    let d ← runTxS c silent 20 d user m
    diskRuns c t d

/-- Nothing deployed. -/
def blank : SWorld := ⟨genesis.bank, fun _ => none, 0, genesis.block⟩

theorem diskRuns_reachable {c : Chain} (hu : c.IsUser user) {l : List RawMsg} : ∀ {d d' : SWorld}, DiskReachable c d → diskRuns c l d = .ok d' →
    DiskReachable c d' := by
  induction l with
  | nil => intro d d' hd h; cases h; exact hd
  | cons m t ih =>
    intro d d' hd h
    simp only [diskRuns, bind_eq_ok] at h
    obtain ⟨d1, h1, h2⟩ := h
    exact ih (.step _ _ hd (.tx silent 20 d d1 user m hu h1)) h2

/-- What is stored at an address. -/
def storeAt (r : R SWorld) (a : Addr) : Option (Bool × Store) := (val r).bind fun d => (d.cells a).map fun x => (decide (x.kind = .token), x.store)

/-- The whole storage of the first token of the demo, once the first pair holds 10000 of it. -/
theorem demo_store : storeAt (diskRuns chain (setup.map CosmosMsg.sent) blank) tA = some (true, [
    ([0, 7] ++ asc "balance" ++ pAB, asc "\"10000\""),
    ([0, 7] ++ asc "balance" ++ user, asc "\"40000\""),
    ([0, 9] ++ asc "allowance" ++ ([0, 1] ++ user ++ pAB), asc "{\"allowance\":\"10000\",\"expires\":{\"never\":{}}}"),
    ([0, 17] ++ asc "allowance_spender" ++ ([0, 5] ++ pAB ++ user), asc "{\"allowance\":\"10000\",\"expires\":{\"never\":{}}}"),
    (asc "contract_info", asc "{\"contract\":\"crates.io:cw20-base\",\"version\":\"0.1.0\"}"),
    (asc "token_info", asc "{\"name\":\"aaa\",\"symbol\":\"aaa\",\"decimals\":6,\"total_supply\":\"50000\"," ++
      asc "\"mint\":{\"minter\":\"U\",\"cap\":\"90000\"}}")]) := by decide +kernel

/-- The hypotheses of `C88_reachable` and `C88_mirror` are met by the demo, with an allowance in both maps. -/
example : ∃ d x v, DiskReachable chain d ∧ d.cells tA = some x ∧ x.kind = .token ∧ (size user = [0, 1] ∧ size pAB = [0, 5]) ∧
    ([0, 9] ++ asc "allowance" ++ (size user ++ user ++ pAB), v) ∈ x.store ∧
    ([0, 17] ++ asc "allowance_spender" ++ (size pAB ++ pAB ++ user), v) ∈ x.store := by
  have h := demo_store
  simp only [storeAt, Option.bind_eq_some_iff, Option.map_eq_some_iff] at h
  obtain ⟨d, hd, x, hx, e⟩ := h
  have hd := diskRuns_reachable isUser_user (.genesis blank rfl fun _ => rfl) (val_eq hd)
  have hk : x.kind = .token := of_decide_eq_true (Prod.mk.inj e).1
  have hm : ([0, 9] ++ asc "allowance" ++ (size user ++ user ++ pAB), asc "{\"allowance\":\"10000\",\"expires\":{\"never\":{}}}") ∈ x.store := by
    rw [(Prod.mk.inj e).2]
    exact .tail _ (.tail _ (.head _))
  exact ⟨d, x, _, hd, hx, hk, by decide, hm, (C88_mirror hd hx hk user pAB (by decide) (by decide) _).1 hm⟩

/-- What a pair, the factory and the router store. -/
example : storeAt (diskRuns chain (setup.map CosmosMsg.sent) blank) pAB = some (false, [
    (asc "contract_info", asc "{\"contract\":\"crates.io:halo-pair\",\"version\":\"0.1.0\"}"),
    (asc "pair_info", asc "{\"asset_infos\":[{\"token\":{\"contract_addr\":\"AQ==\"}}," ++ (asc "{\"token\":{\"contract_addr\":\"AQE=\"}}]," ++
      (asc "\"contract_addr\":\"AQEBAQE=\",\"liquidity_token\":\"AQEBAQEB\"," ++ (asc "\"asset_decimals\":[6,6],\"requirements\":{\"whitelist\":[\"U\"]," ++
      asc "\"first_asset_minimum\":\"10\",\"second_asset_minimum\":\"10\"}}"))))]) ∧
    storeAt (diskRuns chain (setup.map CosmosMsg.sent) blank) rou = some (false, [
      (asc "config", asc "{\"halo_factory\":\"AQEBAQ==\"}"),
      (asc "contract_info", asc "{\"contract\":\"crates.io:halo-router\",\"version\":\"0.1.0\"}")]) ∧
    (storeAt (diskRuns chain (setup.map CosmosMsg.sent) blank) fac).map (fun x => x.2.map (·.1)) = some [
      [0, 9] ++ asc "pair_info" ++ [1, 1, 1], [0, 9] ++ asc "pair_info" ++ [1, 1, 1, 1, 1], asc "config", asc "contract_info",
      asc "tmp_pair_info"] := by decide +kernel

/-- A chain whose addresses are at most 256 bytes of ASCII, as the addresses of the real chain are. -/
def shortChain : Chain where
  api := { canon := fun s => if s.length ≤ 256 ∧ s.all (· < 128) then some s else none, human := some }
  addrOf n := List.replicate (min n 255 + 1) 1
  codes := chain.codes

theorem short_valid {a b : Str} (h : shortChain.api.validate a = .ok b) : b.length ≤ 256 ∧ b.all (· < 128) = true := by
  obtain ⟨rfl, x, hx, _⟩ := validate_eq_ok.1 h
  have hx : (if b.length ≤ 256 ∧ b.all (· < 128) = true then some b else none) = some x := hx
  split at hx
  · assumption
  · cases hx

/-- The hypotheses of `C88_complete` and of the queries of `C88_bisimulation`: no address is too long or empty, none ends in `0xFF`. -/
theorem short_fine : ¬ OddAddress shortChain ∧ ∀ a q, shortChain.api.validate a = .ok a → a ≠ q ++ [255] := by
  refine ⟨?_, ?_⟩
  · rintro (⟨a, ha, hl⟩ | ⟨n, hl⟩)
    · have := (short_valid ha).1
      omega
    · have : (List.replicate (min n 255 + 1) (1 : UInt8)).length = min n 255 + 1 := List.length_replicate
      have hl : List.replicate (min n 255 + 1) (1 : UInt8) = [] ∨ 65535 < (List.replicate (min n 255 + 1) (1 : UInt8)).length := hl
      rcases hl with hl | hl
      · rw [hl] at this; simp at this
      · omega
  · rintro a q ha rfl
    have := (short_valid ha).2
    rw [List.all_append, Bool.and_eq_true] at this
    exact absurd this.2 (by decide)

theorem short_user : shortChain.IsUser user := by
  refine ⟨fun n h => ?_, by decide⟩
  have h2 := congrArg List.head? h
  simp only [shortChain, user, List.replicate_succ, List.head?_cons, Option.some.injEq] at h2
  exact absurd h2 (by decide)

/-- The demo on that chain: reachable with typed storage, hence also with storage as bytes. -/
example : ∃ w d, RawReachable shortChain w ∧ (w.contracts tA).isSome = true ∧ DiskReachable shortChain d ∧ OnDisk d w := by
  have h : ((val (runTxRaw shortChain silent 20 genesis user tokenMsg.sent)).map fun w => (w.contracts tA).isSome) = some true := by decide +kernel
  rw [Option.map_eq_some_iff] at h
  obtain ⟨w, h1, h2⟩ := h
  have hw : RawReachable shortChain w := .step _ _ (.genesis genesis ⟨rfl, fun _ => rfl⟩) (.tx silent 20 _ w user _ short_user (val_eq h1))
  obtain ⟨d, hd, ho⟩ := C88_complete short_fine.1 hw
  exact ⟨w, d, hw, h2, hd, ho⟩

end Demo

end Halo
