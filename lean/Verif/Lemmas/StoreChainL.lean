import Verif.StoreChain
import Verif.Lemmas.StoreFactL
import Verif.Lemmas.QueryCodecL4
import Verif.Lemmas.ByteChainL
/-! # The chain with storage as bytes and the byte-level machine -/

namespace Halo
namespace StoreL
open Codec QueryCodec ByteChain
open _root_.Halo.Spec

variable {L : Prop}

/-- What a store says of a contract of one of the codes. -/
inductive StateRep : Kind → Store → CState → Prop
  | token {σ : Store} {s : TokenState} (h : Holds σ (tokenVal s)) : StateRep .token σ (.token s)
  | pair {σ : Store} {s : Pair.State} (h : Holds σ (pairVal s)) : StateRep .pair σ (.pair s)
  | factory {σ : Store} {s : Factory.State} (h : FacRep σ s) : StateRep .factory σ (.factory s)
  | router {σ : Store} {s : Router.State} (h : Holds σ (routerVal s)) : StateRep .router σ (.router s)
  | other (σ : Store) : StateRep .other σ .other

/-- The cell and the contract at an address. -/
inductive CellRep : Option Cell → Option Contract → Prop
  | none : CellRep none none
  | some (adm : Option Addr) {k : Kind} {σ : Store} {s : CState} (h : StateRep k σ s) : CellRep (some ⟨adm, k, σ⟩) (some ⟨adm, s⟩)

/-- The world with storage as bytes and the world with typed storage. -/
structure Rep (L : Prop) (sw : SWorld) (w : World) : Prop where
  bank : sw.bank = w.bank
  next : sw.next = w.next
  block : sw.block = w.block
  cells : ∀ a, CellRep (sw.cells a) (w.contracts a)
  short : ∀ a, (w.contracts a).isSome = true → a.length ≤ 0xFFFF ∨ L

section
variable {c : Chain} {sw : SWorld} {w : World}

theorem Rep.set (h : Rep L sw w) {a : Addr} (ha : a.length ≤ 0xFFFF ∨ L) (adm : Option Addr) {k : Kind} {σ : Store} {s : CState} (hs : StateRep k σ s) :
    Rep L (sw.setCell a ⟨adm, k, σ⟩) (w.setContract a ⟨adm, s⟩) := by
  refine ⟨h.bank, h.next, h.block, fun b => ?_, fun b hb => ?_⟩
  · show CellRep (if b = a then _ else _) (if b = a then _ else _)
    by_cases e : b = a
    · rw [if_pos e, if_pos e]; exact .some adm hs
    · rw [if_neg e, if_neg e]; exact h.cells b
  · by_cases e : b = a
    · exact e ▸ ha
    · refine h.short b ?_
      have hb : (if b = a then _ else w.contracts b).isSome = true := hb
      rwa [if_neg e] at hb

theorem Rep.isSome (h : Rep L sw w) (a : Addr) : (sw.cells a).isSome = (w.contracts a).isSome := by
  have := h.cells a
  revert this
  generalize sw.cells a = x
  generalize w.contracts a = y
  rintro (_ | _) <;> rfl

theorem Rep.isNone (h : Rep L sw w) (a : Addr) : (sw.cells a).isNone = (w.contracts a).isNone := by
  have := h.cells a
  revert this
  generalize sw.cells a = x
  generalize w.contracts a = y
  rintro (_ | _) <;> rfl

/-! ## x/bank -/

theorem moveLoop_sim (src dst : Addr) : ∀ (l : List Coin) {v w : World}, v.bank = w.bank →
    Sim L (fun v' w' => v'.bank = w'.bank) (moveCoinsLoop src dst l v) (moveCoinsLoop src dst l w)
  | [], _, _, h => .ok h
  | x :: t, v, w, h => by
    unfold moveCoinsLoop moveCoin World.bal
    rw [h]
    simp only [bind_assoc, pure_bind]
    refine Sim.same fun _ _ => Sim.same fun _ _ => moveLoop_sim src dst t ?_
    simp only [World.setBank, h]

theorem move_sim (h : Rep L sw w) (src dst : Addr) (l : List Coin) :
    Sim L (fun sw' w' => Rep L sw' w' ∧ w'.contracts = w.contracts) (moveCoinsS sw src dst l) (moveCoins w src dst l) := by
  have key : Sim L (fun v' w' => v'.bank = w'.bank) (moveCoins sw.shell src dst l) (moveCoins w src dst l) := by
    unfold moveCoins
    exact Sim.same fun _ _ => moveLoop_sim src dst l h.bank
  have := (key.and (K := fun w' => Moved w w' src dst l) fun w' hw => moveCoins_inv hw).bind
    (H' := fun sw' w' => Rep L sw' w' ∧ w'.contracts = w.contracts) (f := fun v => pure { sw with bank := v.bank }) (g := pure) (by
      rintro v w' ⟨hb, hm⟩
      refine .ok ⟨⟨hb, h.next.trans hm.next.symm, h.block.trans hm.block.symm, fun a => ?_, fun a ha => ?_⟩, hm.contracts⟩
      · rw [hm.contracts]; exact h.cells a
      · rw [hm.contracts] at ha; exact h.short a ha)
  rw [bind_pure] at this
  exact this

theorem bank_eq (h : Rep L sw w) : bankAnswer sw.shell = bankAnswer w := by
  funext a d
  unfold bankAnswer World.bal
  rw [show sw.shell.bank = w.bank from h.bank]

/-! ## Queries -/

/-- What contracts see at depth `n`. -/
def asker (bank : Addr → Denom → R Nat) (f : Nat → Str → Bytes → R Bytes) : Nat → Querier
  | 0 => noQuerier
  | n + 1 => byteQuerier bank (f n)

theorem smartS_eq (foreign : Str → Bytes → R Bytes) (n : Nat) (a : Str) (b : Bytes) :
    smartS c foreign sw n a b = (lookCell c sw a >>= fun x => answerCell c (foreign a) (asker (bankAnswer sw.shell) (smartS c foreign sw) n) x b) := by
  cases n with
  | zero => rw [smartS]; rfl
  | succ n => rw [smartS]; rfl

/-- The typed counterpart of `answerCell`. -/
def answerState (c : Chain) (foreign : Bytes → R Bytes) (q : Querier) (s : CState) (b : Bytes) : R Bytes :=
  match s with
  | .token s => answerBytes .token (Token.answer c.api s) b
  | .pair s => answerBytes .pair (Pair.answer c.api q s) b
  | .factory s => answerBytes .factory (Factory.answer c.api s) b
  | .router s => answerBytes .router (Router.answer c.api q s) b
  | .other => foreign b

theorem smart_eq (foreign : Str → Bytes → R Bytes) (n : Nat) (a : Str) (b : Bytes) :
    smart c foreign w n a b = (lookState c w a >>= fun s => answerState c (foreign a) (asker (bankAnswer w) (smart c foreign w) n) s b) := by
  rw [smart_unfold]
  refine bind_congr fun s => ?_
  cases n <;> cases s <;> rfl

/-- The questions contracts ask tokens. -/
def Asked (m : QueryMsg) : Prop := Asks .token m → (∃ a, m = .balance a) ∨ m = .tokenInfo

theorem read_same {k : Kind} {m m' : QueryMsg} (h : readQuery k (writeQuery m) = some m') : m' = m ∧ Asks k m := by
  by_cases hk : Asks k m ∧ FitsAll (queryNumbers m)
  · rw [read_some hk.1 hk.2] at h
    cases h
    exact ⟨rfl, hk.1⟩
  · rw [read_refused hk] at h
    cases h

theorem byteQuerier_congr {bank : Addr → Denom → R Nat} {f g : Str → Bytes → R Bytes} (h : ∀ a m, Asked m → f a (writeQuery m) = g a (writeQuery m)) :
    byteQuerier bank f = byteQuerier bank g := by
  have e : ∀ {α : Type} (a : Str) (m : QueryMsg) (x : Json → Option α), Asked m → ask f a m x = ask g a m x := by
    intro α a m x hm
    unfold ask
    rw [h a m hm]
  unfold byteQuerier
  congr 1
  · funext t a; exact e t _ _ fun _ => .inl ⟨a, rfl⟩
  · funext t; exact e t _ _ fun _ => .inr rfl
  all_goals first
    | (funext t a; exact e t _ _ (fun h => False.elim h))
    | (funext t; exact e t _ _ (fun h => False.elim h))

theorem look_sim (h : ∀ a, CellRep (sw.cells a) (w.contracts a)) (a : Str) :
    Sim L (fun x s => StateRep x.kind x.store s ∧ ∃ b adm, w.contracts b = some ⟨adm, s⟩) (lookCell c sw a) (lookState c w a) := by
  unfold lookCell lookState
  refine Sim.same fun b _ => ?_
  have hx := h b
  revert hx
  generalize hy : w.contracts b = y
  generalize sw.cells b = x
  rintro (_ | ⟨adm, hs⟩)
  · exact .error _
  · exact .ok ⟨hs, b, adm, hy⟩

theorem answer_sim {k : Kind} {f g : QueryMsg → R Json} {b : Bytes} (h : ∀ m, readQuery k b = some m → Sim L Eq (f m) (g m)) :
    Sim L Eq (answerBytes k f b) (answerBytes k g b) := by
  unfold answerBytes
  refine Sim.same fun m hm => (h m (okOr_eq_ok.mp hm)).bind ?_
  rintro j _ rfl
  exact .ok rfl

theorem answerCell_sim (ht : Wire.Typed w) (hs : Short L c.api) (hf : Ends c.api) (foreign : Bytes → R Bytes) (q : Querier) {x : Cell} {s : CState}
    (hx : StateRep x.kind x.store s) (hc : ∃ b adm, w.contracts b = some ⟨adm, s⟩) (b : Bytes) :
    Sim L Eq (answerCell c foreign q x b) (answerState c foreign q s b) := by
  obtain ⟨adr, adm, hc⟩ := hc
  have hfit := ht adr adm s hc
  obtain ⟨adm', k, σ⟩ := x
  cases hx with
  | token h => exact answer_sim fun m _ => token_answer_sim ⟨h, Wire.tok_iff.mp hfit⟩ hs hf m
  | pair h => exact answer_sim fun m _ => (pair_answer_eq h hfit c.api q m) ▸ .rfl' _
  | factory h => exact answer_sim fun m _ => (factory_answer_eq h (Wire.fac_iff.mp hfit) c.api m) ▸ .rfl' _
  | router h => exact answer_sim fun m _ => (router_answer_eq h c.api q m) ▸ .rfl' _
  | other => exact .rfl' _

theorem answerCell_asked (ht : Wire.Typed w) (foreign : Bytes → R Bytes) (q : Querier) {x : Cell} {s : CState}
    (hx : StateRep x.kind x.store s) (hc : ∃ b adm, w.contracts b = some ⟨adm, s⟩) {m : QueryMsg} (hm : Asked m) :
    answerCell c foreign q x (writeQuery m) = answerState c foreign q s (writeQuery m) := by
  obtain ⟨adr, adm, hc⟩ := hc
  have hfit := ht adr adm s hc
  obtain ⟨adm', k, σ⟩ := x
  have fin : ∀ {k} {f g : QueryMsg → R Json}, (Asks k m → f m = g m) → answerBytes k f (writeQuery m) = answerBytes k g (writeQuery m) := by
    intro k f g h
    have : Sim False Eq (answerBytes k f (writeQuery m)) (answerBytes k g (writeQuery m)) := answer_sim fun m' h' => by
      obtain ⟨rfl, ha⟩ := read_same h'
      rw [h ha]; exact .rfl' _
    exact this.eq.resolve_right fun h => h.1
  cases hx with
  | token h =>
    refine fin fun ha => ?_
    rcases hm ha with ⟨a, rfl⟩ | rfl
    · exact token_answer_balance ⟨h, Wire.tok_iff.mp hfit⟩ c.api a
    · exact token_answer_info ⟨h, Wire.tok_iff.mp hfit⟩ c.api
  | pair h => exact fin fun _ => pair_answer_eq h hfit c.api q m
  | factory h => exact fin fun _ => factory_answer_eq h (Wire.fac_iff.mp hfit) c.api m
  | router h => exact fin fun _ => router_answer_eq h c.api q m
  | other => rfl

theorem smart_asked (h : Rep L sw w) (ht : Wire.Typed w) (foreign : Str → Bytes → R Bytes) : ∀ n,
    asker (bankAnswer sw.shell) (smartS c foreign sw) n = asker (bankAnswer w) (smart c foreign w) n
  | 0 => rfl
  | n + 1 => by
    have ih := smart_asked h ht foreign n
    show byteQuerier (bankAnswer sw.shell) (smartS c foreign sw n) = byteQuerier (bankAnswer w) (smart c foreign w n)
    rw [bank_eq h]
    refine byteQuerier_congr fun a m hm => ?_
    rw [smartS_eq, smart_eq, ih]
    have : Sim False Eq
        (lookCell c sw a >>= fun x => answerCell c (foreign a) (asker (bankAnswer w) (smart c foreign w) n) x (writeQuery m))
        (lookState c w a >>= fun s => answerState c (foreign a) (asker (bankAnswer w) (smart c foreign w) n) s (writeQuery m)) :=
      (look_sim h.cells a).bind fun x s hx => (answerCell_asked ht (foreign a) _ hx.1 hx.2 hm) ▸ .rfl' _
    exact this.eq.resolve_right fun h => h.1

theorem smart_sim (h : Rep L sw w) (ht : Wire.Typed w) (hs : Short L c.api) (hf : Ends c.api) (foreign : Str → Bytes → R Bytes) (n : Nat) (a : Str) (b : Bytes) :
    Sim L Eq (smartS c foreign sw n a b) (smart c foreign w n a b) := by
  rw [smartS_eq, smart_eq, smart_asked h ht]
  exact (look_sim h.cells a).bind fun x s hx => answerCell_sim ht hs hf (foreign a) _ hx.1 hx.2 b

theorem querier_eq (h : Rep L sw w) (ht : Wire.Typed w) (foreign : Str → Bytes → R Bytes) (n : Nat) :
    storeQuerier c foreign sw n = wireQuerier c foreign w n := smart_asked h ht foreign (n + 1)

/-! ## Dispatch -/

/-- Messages come from addresses that fit, and the addresses announced in replies fit, or `L`. -/
structure Fine (L : Prop) (f : RawFrame) : Prop where
  sender : ∀ s m, f = .msg s m → s.length ≤ 0xFFFF ∨ L
  created : ∀ s i a, f = .reply s i (some a) → a ≠ [] ∧ a.length ≤ 0xFFFF ∨ L

/-- Worlds that agree, with the same frames. -/
def Next (L : Prop) (x : SWorld × List RawFrame) (y : World × List RawFrame) : Prop := Rep L x.1 y.1 ∧ x.2 = y.2 ∧ ∀ f ∈ y.2, Fine L f

theorem fine_frames {self : Addr} (h : self.length ≤ 0xFFFF ∨ L) (r : Response) : ∀ f ∈ (frames self r).map Frame.sent, Fine L f := by
  intro f hf
  simp only [frames, List.map_map, List.mem_map, Function.comp] at hf
  obtain ⟨x, _, rfl⟩ := hf
  exact ⟨fun s m e => by cases e; exact h, fun s i a e => nomatch e⟩

theorem fine_adv {self : Addr} (h : self.length ≤ 0xFFFF ∨ L) {adv : RawAdv} {n : Nat} {fs : List RawFrame} (hx : adv.frames n self = .ok fs) :
    ∀ f ∈ fs, Fine L f := by
  obtain ⟨ms, _, rfl⟩ := map_ok.mp hx
  intro f hf
  obtain ⟨x, _, rfl⟩ := List.mem_map.mp hf
  exact ⟨fun s m e => by cases e; exact h, fun s i a e => nomatch e⟩

theorem fine_reply (sender : Addr) (id : Option Nat) {o : Option Addr} (ho : ∀ a, o = some a → a ≠ [] ∧ a.length ≤ 0xFFFF ∨ L) :
    ∀ f ∈ rawReply sender id o, Fine L f := by
  intro f hf
  cases id with
  | none => cases hf
  | some i =>
    have : f = .reply sender i o := List.mem_singleton.mp hf
    subst this
    exact ⟨(fun s m e => nomatch e), fun s i a e => by cases e; exact ho a rfl⟩

theorem fine_reply_none (sender : Addr) (id : Option Nat) : ∀ f ∈ rawReply sender id none, Fine L f :=
  fine_reply sender id fun _ h => nomatch h

theorem reply_data {self : Addr} {i : Nat} {o : Option Addr} (hf : Fine L (.reply self i o)) (adv : RawAdv) (n : Nat) :
    parseReply (o.map fun a => instantiateResponse a (adv.data n self)) = o ∨
      L ∧ parseReply (o.map fun a => instantiateResponse a (adv.data n self)) = none := by
  cases o with
  | none => exact .inl rfl
  | some a =>
    rcases parseReply_cases a (adv.data n self) (adv.data n self).2 with h | ⟨h1, h2⟩
    · exact .inl h
    · refine .inr ⟨?_, h2⟩
      rcases hf.created self i a rfl with ⟨h3, h4⟩ | h
      · rcases h1 with h1 | h1
        · exact absurd h1 h3
        · omega
      · exact h

theorem fine_append {l l' : List RawFrame} (h : ∀ f ∈ l, Fine L f) (h' : ∀ f ∈ l', Fine L f) : ∀ f ∈ l ++ l', Fine L f :=
  fun f hf => (List.mem_append.mp hf).elim (h f) (h' f)

theorem read_inRange {k : Kind} {b : Bytes} {m : ExecMsg} (h : readExec k b = some m) : (∀ s a x, m ≠ .receive s a x) → m.inRange = true := by
  intro hn
  rcases read_classify h with ⟨s, a, p, e, _⟩ | ⟨_, e⟩
  · exact absurd e (hn _ _ _)
  · exact e ▸ fits_inRange (classify_wellFormed b).fits

theorem call_sim (hs : Short L c.api) (h : Rep L sw w) (ht : Wire.Typed w) (adv : RawAdv) (n : Nat) (self sender : Addr) (hu : sender.length ≤ 0xFFFF ∨ L)
    (funds : List Coin) (b : Bytes) : Sim L (Next L) (callS c adv n sw self sender funds b) (callRaw c adv n w self sender funds b) := by
  unfold callS callRaw
  rw [querier_eq h ht]
  have hx := h.cells self
  have hsh := h.short self
  have hfit := fun adm s => ht self adm s
  revert hx hsh hfit
  generalize w.contracts self = y
  generalize sw.cells self = x
  rintro (_ | ⟨adm, hr⟩) hsh hfit
  · exact .error _
  · have hsh1 := hsh rfl
    have hfit := hfit _ _ rfl
    have fin : ∀ {σ : Store} {k : Kind} {s : CState} (r : Response), StateRep k σ s →
        Sim L (Next L) (pure (sw.setCell self ⟨adm, k, σ⟩, (frames self r).map Frame.sent)) (pure (w.setState self adm s, (frames self r).map Frame.sent)) :=
      fun r hr => .ok ⟨h.set hsh1 adm hr, rfl, fine_frames hsh1 r⟩
    cases hr with
    | token hr =>
      show Sim L (Next L) ((okOr (readExec .token b) .parse >>= fun m => Token.executeS c.api sw.block _ sender m) >>= _) _
      rw [bind_assoc, h.block]
      refine Sim.same fun m hm => (token_execute_sim ⟨hr, Wire.tok_iff.mp hfit⟩ hs w.block hu (read_inRange (okOr_eq_ok.mp hm) fun s a x e => ?_)).bind ?_
      · have := read_interface (okOr_eq_ok.mp hm)
        rw [e] at this; exact this
      · rintro ⟨σ', r⟩ ⟨s', r'⟩ ⟨h1, h2⟩
        cases h2
        exact fin r (.token h1.holds)
    | pair hr =>
      show Sim L (Next L) ((okOr (readExec .pair b) .parse >>= fun m => Pair.executeS c.api _ self _ sender funds m) >>= _) _
      rw [bind_assoc]
      refine Sim.same fun m hm => (pair_execute_sim hr hfit c.api _ self sender funds m).bind ?_
      rintro ⟨σ', r⟩ ⟨s', r'⟩ ⟨h1, h2⟩
      cases h2
      exact fin r (.pair h1)
    | factory hr =>
      show Sim L (Next L) ((okOr (readExec .factory b) .parse >>= fun m => Factory.executeS c.api _ self _ sender m) >>= _) _
      rw [bind_assoc]
      refine Sim.same fun m hm => (factory_execute_sim hr (Wire.fac_iff.mp hfit) c.api _ self sender m).bind ?_
      rintro ⟨σ', r⟩ ⟨s', r'⟩ ⟨h1, h2⟩
      cases h2
      exact fin r (.factory h1)
    | router hr =>
      show Sim L (Next L) ((okOr (readExec .router b) .parse >>= fun m => Router.executeS c.api _ self _ sender m) >>= _) _
      rw [bind_assoc]
      refine Sim.same fun m hm => (router_execute_sim hr c.api _ self sender m).bind ?_
      rintro ⟨σ', r⟩ ⟨s', r'⟩ ⟨h1, h2⟩
      cases h2
      exact fin r (.router h1)
    | other σ => exact Sim.same fun fs hfs => .ok ⟨h, rfl, fine_adv hsh1 hfs⟩

/-- New storage with the frames of a new contract. -/
def New (L : Prop) (k : Kind) (x : Store × List RawFrame) (y : CState × List RawFrame) : Prop :=
  StateRep k x.1 y.1 ∧ x.2 = y.2 ∧ ∀ f ∈ y.2, Fine L f

theorem inst_sim (adv : RawAdv) (n : Nat) (self sender : Addr) (hsh : self.length ≤ 0xFFFF ∨ L) (k : Kind) (b : Bytes) :
    Sim L (New L k) (instS c adv n self sender k b) (instRaw c adv n self sender k b) := by
  by_cases hk : k = .other
  · subst hk
    exact Sim.same fun fs hfs => .ok ⟨.other _, rfl, fine_adv hsh hfs⟩
  have e1 : instS c adv n self sender k b = (okOr (readInst k b) .parse >>= fun m => match m with
      | .token t => Token.instantiateS c.api t >>= fun σ => pure (σ, [])
      | .pair is code ds rq => Pair.instantiateS c.api self { assetInfos := is, tokenCodeId := code, assetDecimals := ds, requirements := rq } >>= fun x =>
          pure (x.1, (frames self x.2).map Frame.sent)
      | .factory p t => Factory.instantiateS c.api sender p t >>= fun x => pure (x.1, (frames self x.2).map Frame.sent)
      | .router f => Router.instantiateS c.api f >>= fun x => pure (x.1, (frames self x.2).map Frame.sent)
      | .raw _ => .error .parse) := by
    cases k <;> first | exact absurd rfl hk | rfl
  have e2 : instRaw c adv n self sender k b = (okOr (readInst k b) .parse >>= fun m => match m with
      | .token t => Token.instantiate c.api t >>= fun s => pure (.token s, [])
      | .pair is code ds rq => Pair.instantiate c.api self { assetInfos := is, tokenCodeId := code, assetDecimals := ds, requirements := rq } >>= fun x =>
          pure (.pair x.1, (frames self x.2).map Frame.sent)
      | .factory p t => Factory.instantiate c.api sender p t >>= fun x => pure (.factory x.1, (frames self x.2).map Frame.sent)
      | .router f => Router.instantiate c.api f >>= fun x => pure (.router x.1, (frames self x.2).map Frame.sent)
      | .raw _ => .error .parse) := by
    have : instRaw c adv n self sender k b = (callInstBytes c adv.heard n self sender k b >>= fun p => pure (p.1, p.2.map Frame.sent)) := by
      cases k <;> first | exact absurd rfl hk | rfl
    rw [this]
    have : callInstBytes c adv.heard n self sender k b = (okOr (readInst k b) .parse >>= fun m => match m with
      | .token t => Token.instantiate c.api t >>= fun s => pure (.token s, [])
      | .pair is code ds rq => Pair.instantiate c.api self { assetInfos := is, tokenCodeId := code, assetDecimals := ds, requirements := rq } >>= fun x =>
          pure (.pair x.1, frames self x.2)
      | .factory p t => Factory.instantiate c.api sender p t >>= fun x => pure (.factory x.1, frames self x.2)
      | .router f => Router.instantiate c.api f >>= fun x => pure (.router x.1, frames self x.2)
      | .raw _ => .error .parse) := by
      cases k <;> first | exact absurd rfl hk | rfl
    rw [this, bind_assoc]
    refine bind_congr fun m => ?_
    cases m <;> first | rfl | (simp only [bind_assoc, pure_bind, List.map_nil])
  rw [e1, e2]
  refine Sim.same fun m hm => ?_
  have hi := (readInst_inv (okOr_eq_ok.mp hm)).1
  cases m with
  | token t =>
    obtain rfl : k = .token := by cases k <;> first | rfl | exact absurd hi fun h => h
    exact (token_inst_sim c.api t).bind fun σ s h => .ok ⟨.token h, rfl, fun _ h => nomatch h⟩
  | pair is code ds rq =>
    obtain rfl : k = .pair := by cases k <;> first | rfl | exact absurd hi fun h => h
    refine (pair_inst_sim c.api self _).bind ?_
    rintro ⟨σ, r⟩ ⟨s, r'⟩ ⟨h, e⟩
    cases e
    exact .ok ⟨.pair h, rfl, fine_frames hsh r⟩
  | factory p t =>
    obtain rfl : k = .factory := by cases k <;> first | rfl | exact absurd hi fun h => h
    refine (factory_inst_sim c.api sender p t).bind ?_
    rintro ⟨σ, r⟩ ⟨s, r'⟩ ⟨h, e⟩
    cases e
    exact .ok ⟨.factory h, rfl, fine_frames hsh r⟩
  | router f =>
    obtain rfl : k = .router := by cases k <;> first | rfl | exact absurd hi fun h => h
    refine (router_inst_sim c.api f).bind ?_
    rintro ⟨σ, r⟩ ⟨s, r'⟩ ⟨h, e⟩
    cases e
    exact .ok ⟨.router h, rfl, fine_frames hsh r⟩
  | raw x => exact .error _

theorem migrate_rep {k k' : Kind} {σ : Store} {s : CState} (adm : Option Addr) (h : StateRep k' σ s) :
    ∃ σ' k'', migrateCell k ⟨adm, k', σ⟩ = ⟨adm, k'', σ'⟩ ∧ StateRep k'' σ' (migrateState k s) := by
  cases h with
  | token h => cases k <;> exact ⟨_, _, rfl, .other _⟩
  | pair h =>
    cases k with
    | pair => exact ⟨_, _, rfl, .pair (oneItem_version (by decide) h)⟩
    | _ => exact ⟨_, _, rfl, .other _⟩
  | factory h =>
    cases k with
    | factory => exact ⟨_, _, rfl, .factory h.version⟩
    | _ => exact ⟨_, _, rfl, .other _⟩
  | router h =>
    cases k with
    | router => exact ⟨_, _, rfl, .router (oneItem_version (by decide) h)⟩
    | _ => exact ⟨_, _, rfl, .other _⟩
  | other => cases k <;> exact ⟨_, _, rfl, .other _⟩

theorem ct_sim (h : Rep L sw w) (a : Addr) :
    Sim L (fun x ct => (a.length ≤ 0xFFFF ∨ L) ∧ ∃ adm k σ s, x = ⟨adm, k, σ⟩ ∧ ct = ⟨adm, s⟩ ∧ StateRep k σ s)
      (okOr (sw.cells a) .notFound) (okOr (w.contracts a) .notFound) := by
  have hx := h.cells a
  have hsh := h.short a
  revert hx hsh
  generalize w.contracts a = y
  generalize sw.cells a = x
  rintro (_ | ⟨adm, hr⟩) hsh
  · exact .error _
  · exact .ok ⟨hsh rfl, adm, _, _, _, rfl, rfl, hr⟩

theorem step_sim (hs : Short L c.api) (hn : ∀ n, c.addrOf n ≠ [] ∧ (c.addrOf n).length ≤ 0xFFFF ∨ L) (h : Rep L sw w) (ht : Wire.Typed w) (adv : RawAdv) (n : Nat)
    (f : RawFrame) (hf : Fine L f) : Sim L (Next L) (stepS c adv n sw f) (stepRaw c adv n w f) := by
  cases f with
  | reply self i o =>
    rw [stepS, stepRaw]
    rw [querier_eq h ht]
    have hx := h.cells self
    have hsh := h.short self
    have hfit := fun adm s => ht self adm s
    revert hx hsh hfit
    generalize w.contracts self = y
    generalize sw.cells self = x
    rintro (_ | ⟨adm, hr⟩) hsh hfit
    · exact .error _
    · have hsh1 := hsh rfl
      have hfit := hfit _ _ rfl
      have fin : ∀ {σ : Store} {k : Kind} {s : CState} (r : Response), StateRep k σ s →
          Sim L (Next L) (pure (sw.setCell self ⟨adm, k, σ⟩, (frames self r).map Frame.sent)) (pure (w.setState self adm s, (frames self r).map Frame.sent)) :=
        fun r hr => .ok ⟨h.set hsh1 adm hr, rfl, fine_frames hsh1 r⟩
      cases hr with
      | token hr => exact .error _
      | pair hr =>
        refine (pair_reply_sim hr hfit c.api (reply_data hf adv n)).bind ?_
        rintro ⟨σ', r⟩ ⟨s', r'⟩ ⟨h1, h2⟩
        cases h2
        exact fin r (.pair h1)
      | factory hr =>
        refine (factory_reply_sim hr (Wire.fac_iff.mp hfit) c.api _ (reply_data hf adv n)).bind ?_
        rintro ⟨σ', r⟩ ⟨s', r'⟩ ⟨h1, h2⟩
        cases h2
        exact fin r (.factory h1)
      | router hr => exact .error _
      | other σ => exact Sim.same fun fs hfs => .ok ⟨h, rfl, fine_adv hsh1 hfs⟩
  | msg sender sm =>
    have hu := hf.sender sender sm rfl
    obtain ⟨m, id⟩ := sm
    cases m with
    | bankSend t l =>
      exact Sim.same fun _ _ => Sim.same fun d _ => (move_sim h sender d l).bind fun _ _ h => .ok ⟨h.1, rfl, fine_reply_none sender id⟩
    | exec t b l =>
      refine Sim.same fun d hd => ?_
      rw [h.isSome]
      refine Sim.same fun _ _ => (move_sim h sender d l).bind ?_
      rintro sw1 w1 ⟨h1, hc⟩
      have ht1 : Wire.Typed w1 := fun a adm s ha => ht a adm s (hc ▸ ha)
      refine (call_sim hs h1 ht1 adv n d sender hu l b).bind ?_
      rintro ⟨sw2, fs⟩ ⟨w2, fs'⟩ ⟨h2, e, h3⟩
      cases e
      exact .ok ⟨h2, rfl, fine_append h3 (fine_reply_none _ _)⟩
    | inst ad code b l =>
      have hnn := (hn w.next).imp_left And.right
      refine Sim.same fun k _ => Sim.same fun ad' _ => ?_
      simp only
      rw [h.isNone, h.next]
      refine Sim.same fun _ _ => ?_
      have h1 : Rep L { sw with next := w.next + 1 } { w with next := w.next + 1 } := ⟨h.bank, rfl, h.block, h.cells, h.short⟩
      refine (move_sim h1 sender (c.addrOf w.next) l).bind ?_
      rintro sw1 w1 ⟨h2, _⟩
      refine (inst_sim adv n (c.addrOf w.next) sender hnn k b).bind ?_
      rintro ⟨σ, fs⟩ ⟨s, fs'⟩ ⟨h3, e, h4⟩
      cases e
      exact .ok ⟨h2.set hnn ad' h3, rfl, fine_append h4 (fine_reply _ _ fun a e => by cases e; exact hn _)⟩
    | migrate t code =>
      refine Sim.same fun k _ => Sim.same fun a _ => (ct_sim h a).bind ?_
      rintro _ _ ⟨ha, adm, k', σ, s, rfl, rfl, hr⟩
      refine Sim.same fun _ _ => ?_
      obtain ⟨σ', k'', e, hr'⟩ := migrate_rep (k := k) adm hr
      rw [e]
      exact .ok ⟨h.set ha adm hr', rfl, fine_reply_none _ _⟩
    | updateAdmin t ad =>
      refine Sim.same fun a _ => (ct_sim h a).bind ?_
      rintro _ _ ⟨ha, adm, k', σ, s, rfl, rfl, hr⟩
      exact Sim.same fun _ _ => Sim.same fun ad' _ => .ok ⟨h.set ha ad' hr, rfl, fine_reply_none _ _⟩

theorem run_sim (hs : Short L c.api) (hn : ∀ n, c.addrOf n ≠ [] ∧ (c.addrOf n).length ≤ 0xFFFF ∨ L) (adv : RawAdv) (n : Nat) :
    ∀ {sw : SWorld} {w : World} (_ : Rep L sw w) (_ : Wire.Typed w) (fs : List RawFrame) (_ : ∀ f ∈ fs, Fine L f),
    Sim L (fun x y => x.1 = y.1 ∧ Rep L x.2 y.2 ∧ Wire.Typed y.2) (runS c adv n sw fs) (runRaw c adv n w fs) := by
  induction n with
  | zero =>
    intro sw w h ht fs hf
    cases fs with
    | nil => exact .ok ⟨rfl, h, ht⟩
    | cons f t => exact .error _
  | succ n ih =>
    intro sw w h ht fs hf
    cases fs with
    | nil => exact .ok ⟨rfl, h, ht⟩
    | cons f t =>
      have := (step_sim hs hn h ht adv n f (hf f List.mem_cons_self)).and (K := fun y => Wire.Typed y.1) (by
        rintro ⟨w', fs'⟩ hy
        exact (ht.step (step_inv ((step_iff ht f).mpr ⟨fs', hy, rfl⟩))).1)
      refine this.bind ?_
      rintro ⟨sw', fs'⟩ ⟨w', fs''⟩ ⟨⟨h1, e, h2⟩, h3⟩
      cases e
      exact ih h1 h3 _ (fine_append h2 fun g hg => hf g (List.mem_cons_of_mem _ hg))

theorem runTx_sim (hs : Short L c.api) (hn : ∀ n, c.addrOf n ≠ [] ∧ (c.addrOf n).length ≤ 0xFFFF ∨ L) (adv : RawAdv) (gas : Nat) (h : Rep L sw w) (ht : Wire.Typed w)
    {signer : Addr} (hu : signer.length ≤ 0xFFFF ∨ L) (m : RawMsg) :
    Sim L (fun x y => Rep L x y ∧ Wire.Typed y) (runTxS c adv gas sw signer m) (runTxRaw c adv gas w signer m) := by
  refine (run_sim hs hn adv gas h ht _ fun f hf => ?_).bind ?_
  · rw [List.mem_singleton.mp hf]
    exact ⟨fun s m e => by cases e; exact hu, fun s i a e => nomatch e⟩
  · rintro ⟨n, sw'⟩ ⟨n', w'⟩ ⟨_, h1, h2⟩
    exact .ok ⟨h1, h2⟩

end

end StoreL
end Halo
