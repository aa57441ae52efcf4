import Verif.Lemmas.CloseL
import Verif.Props.Events
/-! # The accounts of a pair close exactly (C102) -/

namespace Halo
open _root_.Halo.Spec

namespace PairSite
variable {c : Chain} {k : PairSite}

theorem Good.user_ne {w : World} (hw : Reachable c w) {u a : Addr} {x : Contract} (hu : c.IsUser u) (ha : w.contracts a = some x) : u ≠ a := by
  rintro rfl
  obtain ⟨j, _, hj⟩ := hw.contractsAt _ _ ha
  exact hu.1 j hj.symm

theorem sum_int (f g : α → Nat) (l : List α) : (l.map fun e => (f e : Int) - g e).sum = ((l.map f).sum : Int) - (l.map g).sum := by
  induction l with
  | nil => rfl
  | cons e l ih => simp only [List.map_cons, List.sum_cons, ih]; push_cast; omega

/-- A pair of the project with an LP token of the project. Its assets may be anything. -/
structure Known (k : PairSite) (c : Chain) (w : World) : Prop where
  live : ∃ adm, w.contracts k.a = some ⟨adm, .pair k.s⟩
  info0 : k.s.assetInfos.1.toNormal c.api = .ok k.i0
  info1 : k.s.assetInfos.2.toNormal c.api = .ok k.i1
  lp : c.api.human k.s.liquidityToken = some k.lt
  ne : k.i0 ≠ k.i1
  lp0 : k.i0 ≠ .token k.lt
  lp1 : k.i1 ≠ .token k.lt
  token : Honest w (.token k.lt)

theorem Known.ctx {w : World} (hl : c.Lawful) (h : k.Known c w) : k.Ctx c := ⟨hl, h.info0, h.info1, h.lp, h.ne, h.lp0, h.lp1⟩

theorem Known.is_open {w : World} (hl : c.Lawful) (hw : Reachable c w) (h : k.Known c w) {T : Addr} (hT : Honest w (.token T)) : k.Open T w := by
  obtain ⟨adm, hp⟩ := h.live
  refine ⟨⟨adm, hp⟩, hT T rfl, ?_⟩
  rcases C29_pair_is_minter hl hw hp h.lp with h2 | h2
  · exact h2
  · obtain ⟨adm, st, h3⟩ := h.token k.lt rfl
    rw [h2] at h3; cases h3

theorem Sound.known {w : World} (h : k.Sound c w) : k.Known c w :=
  ⟨h.live, h.info0, h.info1, h.lp, h.ne, h.lp0, h.lp1, h.token⟩

end PairSite
open PairSite

/-- **C102.** Over any history, what a pair holds of an asset token has changed by exactly what its announcements say it was given
and what they say it paid out, plus what was given to it without being asked for. The other asset may be anything, also a hostile
contract. (Unless the admin of the pair or of the token replaced its code.) -/
theorem C102_reserve {c : Chain} (hc : c.Lawful) {w w' : World} (hw : Reachable c w) {tr : List (World × Frame)}
    {es : List (Addr × Event)} (hl : Logged c w tr es w') {k : PairSite} (hk : k.Known c w) {t : Addr}
    (ht : k.i0 = .token t ∨ k.i1 = .token t) (hh : Honest w (.token t)) :
    ((∃ adm, w'.contracts k.a = some ⟨adm, .other⟩) ∨ ∃ adm, w'.contracts t = some ⟨adm, .other⟩) ∨
    held w' (.token t) k.a + total (took (.token t)) (saidBy k.a es) =
      held w (.token t) k.a + total (gave (.token t)) (saidBy k.a es) + sumOf (Entry.gift k.a) (tokenCalls c t tr) := by
  have hx := hk.ctx hc
  have hg := hk.is_open hc hw hh
  have ht' : .token t = k.i0 ∨ .token t = k.i1 := ht.imp Eq.symm Eq.symm
  have hta : ∀ {v : World}, k.Open t v → t ≠ k.a := by
    rintro v hv rfl
    obtain ⟨_, _, h⟩ := hv.tok
    rw [hv.pair] at h
    cases h
  rcases hg.hist hw hl.hist with hb | hg'
  · exact .inl hb
  rcases hg.logged_weighs (wt := k.underWay c t) (net := k.assetNet) (val := assetVal (.token t))
    (fun v u m hgv hv hu => by
      obtain ⟨_, _, h⟩ := hgv.tok
      exact (underWay_weigh (hta hgv)).far _ _ (Good.user_ne hv hu hgv.pair) (Good.user_ne hv hu h))
    (fun hwv h => hwv.weighs (underWay_weigh (hta hwv.good)) h
      (fun _ _ _ _ _ _ _ _ _ hf hr hc hex => hwv.asset_token (hta hwv.good) hf hr hc hex)
      (fun _ _ _ _ _ _ _ hf hr _ _ hex => asset_pair hx ht' hf hr hex)) hw hl with hb | h1
  · exact .inl hb
  refine .inr ?_
  obtain ⟨adm, s, hs⟩ := hg.tok
  obtain ⟨adm', s', hs'⟩ := hg'.tok
  have h2 := (C95_accounts hw hl.hist hs hs').1 k.a
  have e1 : held w (.token t) k.a = s.book.bal k.a := by simp [held, hs, TokenState.book]
  have e2 : held w' (.token t) k.a = s'.book.bal k.a := by simp [held, hs', TokenState.book]
  have e3 : nsum k.assetNet (tokenCalls c t tr) = (sumOf (Entry.credits k.a) (tokenCalls c t tr) : Int) -
      sumOf (Entry.debits k.a) (tokenCalls c t tr) - sumOf (Entry.gift k.a) (tokenCalls c t tr) := by
    induction tokenCalls c t tr with
    | nil => rfl
    | cons e l ih =>
      simp only [nsum, sumOf, List.map_cons, List.sum_cons, assetNet] at ih ⊢
      push_cast
      omega
  have e4 : vsum (assetVal (.token t)) (saidBy k.a es) = (total (gave (.token t)) (saidBy k.a es) : Int) -
      total (took (.token t)) (saidBy k.a es) := sum_int _ _ _
  rw [e1, e2]
  omega

/-- **C102.** And the supply of its LP token has changed by exactly what they say was created and destroyed, and by what holders
destroyed of their own accord. The assets may be anything. -/
theorem C102_supply {c : Chain} (hc : c.Lawful) {w w' : World} (hw : Reachable c w) {tr : List (World × Frame)}
    {es : List (Addr × Event)} (hl : Logged c w tr es w') {k : PairSite} (hk : k.Known c w) :
    (∃ adm, w'.contracts k.a = some ⟨adm, .other⟩) ∨
    supplyAt w' k.lt + total destroyed (saidBy k.a es) + sumOf (Entry.forgone k.a) (tokenCalls c k.lt tr) =
      supplyAt w k.lt + total created (saidBy k.a es) := by
  have hx := hk.ctx hc
  have hg := hk.is_open hc hw hk.token
  have safe : k.Gone k.lt w' → ∃ adm, w'.contracts k.a = some ⟨adm, .other⟩ := by
    rintro (h | ⟨adm, h⟩)
    · exact h
    · obtain ⟨st, h1, _⟩ := hg.lp
      obtain ⟨s', h2⟩ := tok_noadmin_hist h1 hl.hist
      rw [h] at h2
      cases h2
  rcases hg.hist hw hl.hist with hb | hg'
  · exact .inl (safe hb)
  rcases hg.logged_weighs (wt := k.lpUnderWay c) (net := k.lpNet) (val := lpVal)
    (fun v u m hgv hv hu => by
      obtain ⟨_, _, h⟩ := hgv.tok
      exact lpUnderWay_weigh.far _ _ (Good.user_ne hv hu hgv.pair) (Good.user_ne hv hu h))
    (fun hwv h => hwv.weighs lpUnderWay_weigh h
      (fun _ _ _ _ _ _ _ _ _ hf hr hc hex => hwv.lp_token hf hr hc hex)
      (fun _ _ _ _ _ _ _ hf _ _ _ hex => lp_pair hx hf hex)) hw hl with hb | h1
  · exact .inl (safe hb)
  refine .inr ?_
  obtain ⟨adm, s, hs⟩ := hg.tok
  obtain ⟨adm', s', hs'⟩ := hg'.tok
  have h2 := (C95_accounts hw hl.hist hs hs').2
  have e1 : supplyAt w k.lt = s.book.supply := by simp [supplyAt, hs, TokenState.book]
  have e2 : supplyAt w' k.lt = s'.book.supply := by simp [supplyAt, hs', TokenState.book]
  have e3 : nsum k.lpNet (tokenCalls c k.lt tr) = (sumOf Entry.mints (tokenCalls c k.lt tr) : Int) -
      sumOf Entry.burns (tokenCalls c k.lt tr) + sumOf (Entry.forgone k.a) (tokenCalls c k.lt tr) := by
    induction tokenCalls c k.lt tr with
    | nil => rfl
    | cons e l ih =>
      simp only [nsum, sumOf, List.map_cons, List.sum_cons, lpNet] at ih ⊢
      push_cast
      omega
  have e4 : vsum lpVal (saidBy k.a es) = (total created (saidBy k.a es) : Int) - total destroyed (saidBy k.a es) := sum_int _ _ _
  rw [e1, e2]
  omega

/-- **C102.** The same for a native coin of the pair, transaction by transaction; between transactions the chain itself may credit
the pair. A gift is coins sent by a bank message or attached to a call that is not a deposit. -/
theorem C102_coins {c : Chain} (hc : c.Lawful) {w w' : World} (hw : Reachable c w) {adv : Adv} {gas : Nat} {signer : Addr}
    {m : CosmosMsg} (hu : c.IsUser signer) (hx : runTx c adv gas w signer m = .ok w') {k : PairSite} (hk : k.Known c w) {d : Denom}
    (hd : k.i0 = .native d ∨ k.i1 = .native d) :
    (∃ adm, w'.contracts k.a = some ⟨adm, .other⟩) ∨
    held w' (.native d) k.a + total (took (.native d)) (saidBy k.a (log c adv gas w [.msg signer (plain m)])) =
      held w (.native d) k.a + total (gave (.native d)) (saidBy k.a (log c adv gas w [.msg signer (plain m)])) +
        ((trace c adv gas w [.msg signer (plain m)]).map fun e => coinGift c d k.a e.2).sum := by
  have hg := hk.is_open hc hw hk.token
  obtain ⟨n, hr⟩ := runTx_inv hx
  rcases (Seen.start hw hg hu m).run_coins (hd.imp Eq.symm Eq.symm) (hk.ctx hc) hr with hb | h1
  · rcases hb with h | ⟨adm, h⟩
    · exact .inl h
    · obtain ⟨st, h1, _⟩ := hg.lp
      obtain ⟨s', h2⟩ := tok_noadmin_run h1 hr
      rw [h] at h2
      cases h2
  refine .inr ?_
  have e0 : wsum (k.coinWay d) [.msg signer (plain m)] = 0 := by
    simp only [wsum, List.map_cons, List.map_nil, List.sum_cons, List.sum_nil, add_zero]
    exact coinWay_far d (Good.user_ne hw hu hg.pair) _
  have e4 : ∀ l, vsum (assetVal (.native d)) l = (total (gave (.native d)) l : Int) - total (took (.native d)) l :=
    fun l => sum_int _ _ _
  rw [e0, e4] at h1
  simp only [held]
  omega

namespace PairSite

/-- The tally of announcements that fit requests to the pair. -/
theorem tally_of {i0 i1 : AssetInfo} (hne : i0 ≠ i1) : ∀ {cs : List (Pool × Call)} {es : List Event} {b : Tally},
    List.Forall₂ (Reports i0 i1) cs es →
    (b.of i0 es).r0 = b.r0 + total (gave i0) es - total (took i0) es ∧ (b.of i0 es).r1 = b.r1 + total (gave i1) es - total (took i1) es ∧
      (b.of i0 es).supply = b.supply + total created es - total destroyed es := by
  intro cs es b h
  induction h generalizing b with
  | nil => simp [Tally.of, total]
  | @cons x E cs es hE _ ih =>
    obtain ⟨h0, h1, h2⟩ := ih (b := b.add i0 E)
    have e : b.of i0 (E :: es) = (b.add i0 E).of i0 es := rfl
    rw [e, h0, h1, h2]
    simp only [total, List.map_cons, List.sum_cons]
    obtain ⟨p, cl⟩ := x
    cases cl <;> cases E <;> simp only [Reports] at hE
    · obtain ⟨rfl, rfl, rfl, _⟩ := hE
      simp only [Tally.add, gave, took, created, destroyed, ↓reduceIte, hne, hne.symm]
      push_cast
      omega
    · obtain ⟨rfl, rfl, rfl, _⟩ := hE
      simp only [Tally.add, gave, took, created, destroyed, ↓reduceIte, hne, hne.symm]
      push_cast
      omega
    · obtain ⟨rfl | rfl, _⟩ := hE <;> simp only [Tally.add, gave, took, created, destroyed, ↓reduceIte, hne, hne.symm] <;> push_cast <;> omega
    · obtain ⟨rfl, rfl⟩ := hE
      simp only [Tally.add, gave, took, created, destroyed, ↓reduceIte, hne, hne.symm]
      push_cast
      omega

end PairSite

/-- **C102.** Somebody who reads the announcements of a pair of two tokens, and nothing else, knows its reserves and its LP supply
exactly, as long as nobody gives it anything and no holder destroys LP tokens. -/
theorem C102_tally {c : Chain} (hc : c.Lawful) {w w' : World} (hw : Reachable c w) {tr : List (World × Frame)}
    {es : List (Addr × Event)} (hl : Logged c w tr es w') {k : PairSite} (hk : k.Sound c w) {t0 t1 : Addr} (h0 : k.i0 = .token t0)
    (h1 : k.i1 = .token t1) (g0 : ∀ e ∈ tokenCalls c t0 tr, e.gift k.a = 0) (g1 : ∀ e ∈ tokenCalls c t1 tr, e.gift k.a = 0)
    (gl : ∀ e ∈ tokenCalls c k.lt tr, e.forgone k.a = 0) :
    ((∃ adm, w'.contracts k.a = some ⟨adm, .other⟩) ∨
      ∃ t adm, (k.i0 = .token t ∨ k.i1 = .token t) ∧ w'.contracts t = some ⟨adm, .other⟩) ∨
    Tally.of k.i0 ⟨held w k.i0 k.a, held w k.i1 k.a, supplyAt w k.lt⟩ (saidBy k.a es) =
      ⟨held w' k.i0 k.a, held w' k.i1 k.a, supplyAt w' k.lt⟩ := by
  have none : ∀ {f : Entry → Nat} {l : List Entry}, (∀ e ∈ l, f e = 0) → sumOf f l = 0 := by
    intro f l h
    apply List.sum_eq_zero
    intro x hx
    obtain ⟨e, he, rfl⟩ := List.mem_map.mp hx
    exact h e he
  rcases (hk.good hc hw).logged_reports (hk.ctx hc) hw hl with hb | hr
  · exact .inl hb
  rcases C102_reserve hc hw hl hk.known (.inl h0) (h0 ▸ hk.asset0) with hb | e0
  · exact .inl (hb.imp id fun ⟨adm, h⟩ => ⟨t0, adm, .inl h0, h⟩)
  rcases C102_reserve hc hw hl hk.known (.inr h1) (h1 ▸ hk.asset1) with hb | e1
  · exact .inl (hb.imp id fun ⟨adm, h⟩ => ⟨t1, adm, .inr h1, h⟩)
  rcases C102_supply hc hw hl hk.known with hb | e2
  · exact .inl (.inl hb)
  rw [none g0, ← h0] at e0
  rw [none g1, ← h1] at e1
  rw [none gl] at e2
  obtain ⟨r0, r1, r2⟩ := tally_of (b := ⟨held w k.i0 k.a, held w k.i1 k.a, supplyAt w k.lt⟩) hk.ne hr
  refine .inr ?_
  generalize Tally.of k.i0 _ (saidBy k.a es) = b at r0 r1 r2
  obtain ⟨b0, b1, b2⟩ := b
  simp only [Tally.mk.injEq] at r0 r1 r2 ⊢
  refine ⟨?_, ?_, ?_⟩ <;> omega

/-! ## Examples -/

namespace Demo

/-- A swap, a deposit, a gift of 5 A, a withdrawal, and 7 LP tokens destroyed by their holder. -/
def busyAB : List CosmosMsg :=
  [approve tA pAB, approve tB pAB, .exec tA (.send pAB 1000 (.swap none none none)) [], .exec pAB (.provideLiquidity (⟨.token tB, 2000⟩, ⟨.token tA, 1300⟩) none none) [],
   .exec tA (.transfer pAB 5) [], .exec lpAB (.send pAB 500 .withdrawLiquidity) [], .exec lpAB (.burn 7) []]
def busyDone : World := worldOf (runs busyAB deployed)
theorem busyDone_run : runs busyAB deployed = .ok busyDone := worldOf_eq (by decide +kernel)
theorem busy_logged : Logged chain deployed (traces busyAB deployed) (logs busyAB deployed) busyDone := by
  simpa using logged_runs .refl busyDone_run

example := C102_reserve lawful deployed_reachable busy_logged sound_AB.known (t := tA) (.inl rfl) sound_AB.asset0
example := C102_supply lawful deployed_reachable busy_logged sound_AB.known
/-- 10000 + 2300 given + 5 gift, less what was taken. -/
example : held deployed (.token tA) pAB = 10000 ∧ total (gave (.token tA)) (saidBy pAB (logs busyAB deployed)) = 2300 ∧
    sumOf (Entry.gift pAB) (tokenCalls chain tA (traces busyAB deployed)) = 5 ∧
    sumOf (Entry.gift pAB) (tokenCalls chain tB (traces busyAB deployed)) = 0 ∧
    sumOf (Entry.forgone pAB) (tokenCalls chain lpAB (traces busyAB deployed)) = 7 ∧
    held busyDone (.token tA) pAB + total (took (.token tA)) (saidBy pAB (logs busyAB deployed)) = 12305 ∧
    0 < total (took (.token tA)) (saidBy pAB (logs busyAB deployed)) := by decide +kernel

/-- Without the gift and the burn. -/
example := C102_tally lawful deployed_reachable (k := siteAB) (t0 := tA) (t1 := tB)
  (by simpa using logged_runs .refl swapped_run : Logged chain deployed (traces backForth deployed) (logs backForth deployed) swapped)
  sound_AB rfl rfl (by decide +kernel) (by decide +kernel) (by decide +kernel)

/-- A pair of the native coin "u" and token A, filled with 500 and 1000. -/
def pUA : Addr := chain.addrOf deployed.next
def lpUA : Addr := chain.addrOf (deployed.next + 1)
def siteUA : PairSite where
  a := pUA
  lt := lpUA
  s := { assetInfos := (.native [117], .token tA), contractAddr := pUA, liquidityToken := lpUA, assetDecimals := (6, 6),
         requirements := ⟨[user], 10, 10⟩ }
  i0 := .native [117]
  i1 := .token tA
def fillUA : List CosmosMsg :=
  nativeSetup ++ [approve tA pUA, .exec pUA (.provideLiquidity (⟨.native [117], 500⟩, ⟨.token tA, 1000⟩) none none) [⟨[117], 500⟩]]
def filledUA : World := worldOf (runs fillUA deployed)
theorem filledUA_run : runs fillUA deployed = .ok filledUA := worldOf_eq (by decide +kernel)
theorem filledUA_reachable : Reachable chain filledUA := deployed_reachable.later (later_runs filledUA_run)
theorem sound_UA : siteUA.Sound chain filledUA where
  live := by
    have : (pairAt filledUA pUA).map Prod.snd = some siteUA.s := by decide +kernel
    obtain ⟨⟨adm, s⟩, h1, h2⟩ := Option.map_eq_some_iff.mp this
    cases h2
    exact ⟨adm, pairAt_eq h1⟩
  info0 := rfl
  info1 := rfl
  lp := rfl
  ne := by decide +kernel
  lp0 := by decide +kernel
  lp1 := by decide +kernel
  asset0 := by intro t ht; cases ht
  asset1 := by
    intro t ht
    cases ht
    exact (exists_token (w := filledUA) (a := tA) (t := fun _ => true) (by decide +kernel)).imp fun _ => Exists.imp fun _ h => h.1
  token := by
    intro t ht
    cases ht
    exact (exists_token (w := filledUA) (a := lpUA) (t := fun _ => true) (by decide +kernel)).imp fun _ => Exists.imp fun _ h => h.1

/-- Token A is sold for "u". -/
def sellTx : CosmosMsg := .exec tA (.send pUA 300 (.swap none none none)) []
def soldUA : World := worldOf (runTx chain idle 20 filledUA user sellTx)
theorem soldUA_run : runTx chain idle 20 filledUA user sellTx = .ok soldUA := worldOf_eq (by decide +kernel)
/-- 7 "u" are given away. -/
def tipTx : CosmosMsg := .bankSend pUA [⟨[117], 7⟩]
def tippedUA : World := worldOf (runTx chain idle 20 filledUA user tipTx)
theorem tippedUA_run : runTx chain idle 20 filledUA user tipTx = .ok tippedUA := worldOf_eq (by decide +kernel)

example := C102_coins lawful filledUA_reachable isUser_user soldUA_run sound_UA.known (.inl rfl)
example := C102_coins lawful filledUA_reachable isUser_user tippedUA_run sound_UA.known (.inl rfl)
example : held filledUA (.native [117]) pUA = 500 ∧ held soldUA (.native [117]) pUA = 385 ∧ held tippedUA (.native [117]) pUA = 507 ∧
    total (took (.native [117])) (saidBy pUA (log chain idle 20 filledUA [.msg user (plain sellTx)])) = 115 ∧
    ((trace chain idle 20 filledUA [.msg user (plain tipTx)]).map fun e => coinGift chain [117] pUA e.2).sum = 7 := by decide +kernel

end Demo
end Halo
