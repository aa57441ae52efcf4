import Verif.Props.Pool
import Verif.Lemmas.SettleL
/-! # Announcements can be trusted (C73) -/

namespace Halo
open _root_.Halo.Spec

/-- C73: over any history, the announcements recorded under a pair's address match the requests made to it one for one, in
order: a swap names the two assets, the offered amount and the quoted return, spread and commission; a deposit the two assets
with their amounts and the LP tokens due for them; a withdrawal the LP tokens given back and the two pro-rata refunds. This
holds until somebody with the right to do so replaces the code of the pair or of one of its assets. -/
theorem C73_announced {c : Chain} (hc : c.Lawful) {w w' : World} (hw : Reachable c w) {tr : List (World × Frame)}
    {es : List (Addr × Event)} (hl : Logged c w tr es w') {k : PairSite} (hk : k.Sound c w) :
    ((∃ adm, w'.contracts k.a = some ⟨adm, .other⟩) ∨
      ∃ t adm, (k.i0 = .token t ∨ k.i1 = .token t) ∧ w'.contracts t = some ⟨adm, .other⟩) ∨
    List.Forall₂ (Reports k.i0 k.i1) (k.calls c tr) (saidBy k.a es) :=
  (hk.good hc hw).logged_reports (hk.ctx hc) hw hl

/-- C73, what it is good for: somebody who starts from the pool in `w` and then only reads the announcements of the pair has
booked no more than is in the reserves, and no fewer LP tokens than there are. -/
theorem C73_bookkeeping {c : Chain} (hc : c.Lawful) {w w' : World} (hw : Reachable c w) {tr : List (World × Frame)}
    {es : List (Addr × Event)} (hl : Logged c w tr es w') {k : PairSite} (hk : k.Sound c w) :
    ((∃ adm, w'.contracts k.a = some ⟨adm, .other⟩) ∨
      ∃ t adm, (k.i0 = .token t ∨ k.i1 = .token t) ∧ w'.contracts t = some ⟨adm, .other⟩) ∨
    ∃ b : Tally, b = Tally.of k.i0 ⟨held w k.i0 k.a, held w k.i1 k.a, supplyAt w k.lt⟩ (saidBy k.a es) ∧
      b.r0 ≤ held w' k.i0 k.a ∧ b.r1 ≤ held w' k.i1 k.a ∧ (supplyAt w' k.lt : Int) ≤ b.supply := by
  have hx := hk.ctx hc
  have hg := hk.good hc hw
  rcases hg.logged_reports hx hw hl with hb | h1
  · exact .inl hb
  rcases hg.hist hx hw hl.hist with hb | ⟨_, h2⟩
  · exact .inl hb
  exact .inr ⟨_, rfl, h2.book hx.ne h1 (le_refl _) (le_refl _) (le_refl _)⟩

/-- C73, payments: whenever the pair announces something, the very next things that happen are the ones announced: the return
is paid to the named receiver, or the two refunds are paid and the LP tokens destroyed, or the deposit is collected and the LP
tokens are created for the named receiver. Nothing else is executed before that is done. -/
theorem C73_paid {c : Chain} (hc : c.Lawful) {w w' : World} (hw : Reachable c w) {adv : Adv} {gas : Nat} {signer : Addr}
    {m : CosmosMsg} (hu : c.IsUser signer) (hx : runTx c adv gas w signer m = .ok w') {k : PairSite} (hk : k.Sound c w)
    (hb : ¬ ((∃ adm, w'.contracts k.a = some ⟨adm, .other⟩) ∨
      ∃ t adm, (k.i0 = .token t ∨ k.i1 = .token t) ∧ w'.contracts t = some ⟨adm, .other⟩))
    {n : Nat} {v : World} {f : Frame} {rest : List Frame}
    (hv : Comes c adv gas w [.msg signer (plain m)] (n + 1) v (f :: rest)) {E : Event}
    (hE : (k.a, E) ∈ said c adv n v f) :
    ∃ n' v' rf, Comes c adv gas w [.msg signer (plain m)] n' v' (rf ++ rest) ∧
      (∀ g ∈ rf, ∃ id cr, g = .reply f.actor id cr) ∧ k.Settles c E v v' := by
  obtain ⟨n', hr⟩ := runTx_inv hx
  have hr2 := hv.run.trans hr
  have hW := (PairSite.Watched.start hw (hk.good hc hw) hu m).comes hv
  rcases hW with hB | hW
  · exact absurd (hB.run hr2) hb
  obtain ⟨_, w1, fs1, he, hs, hr3⟩ := run_cons_inv hr2
  cases he
  obtain ⟨pay, rf, rfl, h1, h2⟩ := hW.settles (hk.ctx hc) (step_inv hs) (mem_saidBy.mpr hE)
  rw [List.append_assoc] at hr3
  obtain ⟨n2, v2, hr4, _⟩ := run_append.mp hr3
  refine ⟨n2, v2, rf, ?_, h1, h2 _ _ _ hr4⟩
  have h3 := Comes.step _ _ _ _ _ _ hv hs
  rw [List.append_assoc] at h3
  exact h3.runs hr4

/-- Everything in the log of a transaction was announced in a machine state it came to. -/
theorem mem_log {c : Chain} {adv : Adv} {e : Addr × Event} {w0 : World} {n0 : Nat} {fs0 : List Frame} :
    ∀ {n n' : Nat} {v v' : World} {fs : List Frame}, Comes c adv n0 w0 fs0 n v fs → run c adv n v fs = .ok (n', v') →
      e ∈ log c adv n v fs →
      ∃ n1 v1 f rest, Comes c adv n0 w0 fs0 (n1 + 1) v1 (f :: rest) ∧ e ∈ said c adv n1 v1 f := by
  intro n
  induction n with
  | zero =>
    intro n' v v' fs hv hr he
    cases fs <;> cases he
  | succ n ih =>
    intro n' v v' fs hv hr he
    cases fs with
    | nil => cases he
    | cons f fs =>
      obtain ⟨m, w1, fs1, h, hs, hr⟩ := run_cons_inv hr
      cases h
      rw [log_cons hs] at he
      rcases List.mem_append.mp he with he | he
      · exact ⟨n, v, f, fs, hv, he⟩
      · exact ih (Comes.step _ _ _ _ _ _ hv hs) hr he

/-- C73, payments, read from the log of a transaction. -/
theorem C73_log_paid {c : Chain} (hc : c.Lawful) {w w' : World} (hw : Reachable c w) {adv : Adv} {gas : Nat} {signer : Addr}
    {m : CosmosMsg} (hu : c.IsUser signer) (hx : runTx c adv gas w signer m = .ok w') {k : PairSite} (hk : k.Sound c w)
    (hb : ¬ ((∃ adm, w'.contracts k.a = some ⟨adm, .other⟩) ∨
      ∃ t adm, (k.i0 = .token t ∨ k.i1 = .token t) ∧ w'.contracts t = some ⟨adm, .other⟩))
    {E : Event} (hE : (k.a, E) ∈ log c adv gas w [.msg signer (plain m)]) :
    ∃ n v fs n' v' fs', Comes c adv gas w [.msg signer (plain m)] n v fs ∧
      Comes c adv gas w [.msg signer (plain m)] n' v' fs' ∧ k.Settles c E v v' := by
  obtain ⟨_, hr⟩ := runTx_inv hx
  obtain ⟨n, v, f, rest, h1, h2⟩ := mem_log .refl hr hE
  obtain ⟨n', v', rf, h3, _, h4⟩ := C73_paid hc hw hu hx hk hb h1 h2
  exact ⟨_, v, _, n', v', _, h1, h3, h4⟩

/-- C73 for the factory: everything in a factory's storage was there before or has been announced under its address: each
registered pair with its address and the address of its LP token, each native coin with its decimals, each change of the
configuration. -/
theorem C73_factory_announced {c : Chain} {w w' : World} {tr : List (World × Frame)} {es : List (Addr × Event)}
    (hl : Logged c w tr es w') {a : Addr} {adm : Option Addr} {s : Factory.State}
    (ha : w'.contracts a = some ⟨adm, .factory s⟩) :
    (∀ key e, (key, e) ∈ s.pairs → (∃ adm s0, w.contracts a = some ⟨adm, .factory s0⟩ ∧ (key, e) ∈ s0.pairs) ∨
      ∃ p l, (a, .pairCreated p l) ∈ es ∧ c.api.canon p = some e.contractAddr ∧ c.api.canon l = some e.liquidityToken) ∧
    (∀ d x, s.allow.get d = some x →
      (∃ adm s0, w.contracts a = some ⟨adm, .factory s0⟩ ∧ s0.allow.get d = some x) ∨ (a, .addNativeToken d x) ∈ es) ∧
    ∀ adm s0, w.contracts a = some ⟨adm, .factory s0⟩ → s.config = s0.config ∨ (a, .updateConfig) ∈ es := by
  obtain ⟨_, h⟩ := announced hl a
  obtain ⟨h1, h2, h3⟩ := h adm s ha
  exact ⟨h1, h2, h3⟩

private theorem mem_smapSet_self {V : Type} {k : Bytes} {v : V} {m : List (Bytes × V)} : (k, v) ∈ smapSet k v m := by
  induction m with
  | nil => simp [smapSet]
  | cons hd t ih =>
    obtain ⟨k', v'⟩ := hd
    simp only [smapSet]
    split
    · exact List.mem_cons_self
    · split
      · exact List.mem_cons_self
      · exact List.mem_cons_of_mem _ ih

/-- C73 for the factory, conversely: when a factory announces a new pair, the contract that was just created is registered
under that address, and if it is a halo pair, the announced LP token is the one the pair uses. -/
theorem C73_created {c : Chain} {adv : Adv} {n : Nat} {v v' : World} {f : Frame} {fs : List Frame}
    (hs : step c adv n v f = .ok (v', fs)) {a : Addr} {adm : Option Addr} {s : Factory.State}
    (ha : v.contracts a = some ⟨adm, .factory s⟩) {p l : Addr} (hE : (a, .pairCreated p l) ∈ said c adv n v f) :
    (∃ id, f = .reply a id (some p)) ∧
    (∃ adm' s' key e, v'.contracts a = some ⟨adm', .factory s'⟩ ∧ (key, e) ∈ s'.pairs ∧
      c.api.canon p = some e.contractAddr ∧ c.api.canon l = some e.liquidityToken) ∧
    ∀ adm' ps, c.api.resolve p = .ok p → v.contracts p = some ⟨adm', .pair ps⟩ → c.api.human ps.liquidityToken = some l := by
  cases f with
  | msg sender sm =>
    exfalso
    obtain ⟨m, id⟩ := sm
    cases m with
    | exec target m funds =>
      simp only [said] at hE
      cases hr : c.api.resolve target with
      | error => simp [hr] at hE
      | ok me =>
        simp only [hr] at hE
        cases hm : moveCoins v sender me funds with
        | error => simp [hm] at hE
        | ok w1 =>
          simp only [hm, List.mem_map, Prod.mk.injEq] at hE
          obtain ⟨E, hE, rfl, rfl⟩ := hE
          rw [(moveCoins_inv hm).contracts, ha] at hE
          simp only at hE
          cases hx : Factory.execute c.api (querier c (adv.query n) w1) me s sender m with
          | error => rw [hx] at hE; cases hE
          | ok sr =>
            obtain ⟨s', r⟩ := sr
            rw [hx] at hE
            cases Factory.execute_inv hx <;> simp [eventsOf] at hE
    | _ => cases hE
  | reply me id cr =>
    simp only [said, List.mem_map, Prod.mk.injEq] at hE
    obtain ⟨E, hE, rfl, rfl⟩ := hE
    rw [ha] at hE
    simp only at hE
    cases hx : Factory.reply c.api (querier c (adv.query n) v) s cr with
    | error => rw [hx] at hE; cases hE
    | ok sr =>
      obtain ⟨s', r⟩ := sr
      rw [hx] at hE
      obtain ⟨tmp, p', info, lt, ca, ht, rfl, hq, hlt, hca, rfl, rfl⟩ := Factory.reply_inv hx
      simp only [eventsOf, List.mem_singleton, Event.pairCreated.injEq] at hE
      obtain ⟨rfl, rfl⟩ := hE
      refine ⟨⟨id, rfl⟩, ?_, fun adm' ps hr hp => ?_⟩
      · generalize hf : Frame.reply me id (some p) = f at hs
        cases step_inv hs with
        | replyFactory _ _ _ admin s1 s2 r2 hc hx2 =>
          cases hf
          rw [ha] at hc
          cases hc
          rw [hx] at hx2
          cases hx2
          exact ⟨_, _, _, _, setContract_self _ _ _, mem_smapSet_self, hca, hlt⟩
        | replyPair _ _ _ _ _ _ _ hc | replyOther _ _ _ _ _ hc =>
          cases hf
          rw [ha] at hc
          cases hc
        | _ => cases hf
      · have hinfo : ps.toNormal c.api = .ok info := by
          simp only [querier, baseQuerier, lookState, hr, bind_eq_ok, Except.ok.injEq, okOr_eq_ok, pure_eq_ok] at hq
          obtain ⟨_, ⟨_, rfl, _, hk, rfl⟩, hq⟩ := hq
          rw [hp] at hk
          cases hk
          exact chkPI_eq_ok hq
        simp only [PairInfoRaw.toNormal, bind_eq_ok, humanize_eq_ok, pure_eq_ok] at hinfo
        obtain ⟨lth, g1, _, _, _, _, _, _, rfl⟩ := hinfo
        exact g1

/-! ## Examples -/

namespace Demo

/-- The log of the transactions in `l`. -/
def logs : List CosmosMsg → World → List (Addr × Event)
  | [], _ => []
  | m :: l, w => log chain idle 20 w [.msg user (plain m)] ++ logs l (worldOf (runTx chain idle 20 w user m))

theorem logged_runs {l : List CosmosMsg} : ∀ {u w w' : World} {tr : List (World × Frame)} {es : List (Addr × Event)},
    Logged chain u tr es w → runs l w = .ok w' → Logged chain u (tr ++ traces l w) (es ++ logs l w) w' := by
  induction l with
  | nil => intro u w w' tr es hl h; cases h; simpa [traces, logs] using hl
  | cons m l ih =>
    intro u w w' tr es hl h
    simp only [runs, bind_eq_ok] at h
    obtain ⟨v, h1, h2⟩ := h
    have := ih (.tx _ _ idle 20 w v user m hl isUser_user h1) h2
    simp only [traces, logs, h1, worldOf]
    rw [← List.append_assoc, ← List.append_assoc]
    exact this

/-- What the pair announced in `trade`: a swap and a withdrawal. The burn of LP tokens is not the pair's doing. -/
theorem trade_log : saidBy pAB (logs trade deployed) =
    [.swap user user (.token tA) (.token tB) 1000 1813 182 5,
     .withdrawLiquidity user 500 (⟨.token tA, 388⟩, ⟨.token tB, 643⟩)] := by decide +kernel

theorem trade_logged : Logged chain deployed tradeTrace (logs trade deployed) traded := by
  simpa [tradeTrace] using logged_runs .refl traded_run

example := C73_announced lawful deployed_reachable trade_logged sound_AB
example := C73_bookkeeping lawful deployed_reachable trade_logged sound_AB
/-- The bookkeeper misses the 7 burned LP tokens, nothing else. -/
example : Tally.of (.token tA) ⟨10000, 20000, 14142⟩ (saidBy pAB (logs trade deployed)) = ⟨10612, 17544, 13642⟩ ∧
    siteAB.pool traded = ⟨10612, 17544, 13635⟩ := by
  rw [trade_log]; exact ⟨rfl, by decide +kernel⟩

/-- The swap alone. -/
def swapTx : CosmosMsg := .exec tA (.send pAB 1000 (.swap none none none)) []
def swapDone : World := worldOf (runTx chain idle 20 deployed user swapTx)
theorem swapDone_run : runTx chain idle 20 deployed user swapTx = .ok swapDone := worldOf_eq (by decide +kernel)
theorem swapDone_log : (pAB, .swap user user (.token tA) (.token tB) 1000 1813 182 5) ∈
    log chain idle 20 deployed [.msg user (plain swapTx)] := by decide +kernel
theorem swapDone_sound : siteAB.Sound chain swapDone :=
  sound_of (k := siteAB) (x := tA) (y := tB) (by decide +kernel) ⟨rfl, rfl, rfl⟩ rfl rfl (by decide +kernel)
    (by decide +kernel)

theorem not_broken {k : PairSite} {c : Chain} {w : World} (h : k.Sound c w) :
    ¬ ((∃ adm, w.contracts k.a = some ⟨adm, .other⟩) ∨
      ∃ t adm, (k.i0 = .token t ∨ k.i1 = .token t) ∧ w.contracts t = some ⟨adm, .other⟩) := by
  rintro (⟨adm, h1⟩ | ⟨t, adm, h1 | h1, h2⟩)
  · obtain ⟨_, h2⟩ := h.live
    rw [h2] at h1; cases h1
  · obtain ⟨_, _, h3⟩ := h.asset0 _ h1
    rw [h3] at h2; cases h2
  · obtain ⟨_, _, h3⟩ := h.asset1 _ h1
    rw [h3] at h2; cases h2

example := C73_log_paid lawful deployed_reachable isUser_user swapDone_run sound_AB (not_broken swapDone_sound) swapDone_log

/-- The deployment: the factory announced its two pairs. -/
theorem setup_log : saidBy fac (logs setup genesis) =
    [.createPair (.token tA, .token tB), .pairCreated pAB lpAB, .createPair (.token tB, .token tC),
     .pairCreated pBC lpBC] := by decide +kernel
theorem setup_logged : Logged chain genesis (traces setup genesis) (logs setup genesis) deployed := by
  simpa using logged_runs .refl deployed_run
example {adm : Option Addr} {s : Factory.State} (h : deployed.contracts fac = some ⟨adm, .factory s⟩) :=
  C73_factory_announced setup_logged h

/-- Before the first pair was created. -/
def facReady : World := worldOf (runs [tokenMsg, tokenMsg, tokenMsg, facMsg] genesis)
def firstPair : World := worldOf (runTx chain idle 20 facReady user (createMsg tA tB))
theorem firstPair_run : runTx chain idle 20 facReady user (createMsg tA tB) = .ok firstPair := worldOf_eq (by decide +kernel)
theorem firstPair_log : (fac, .pairCreated pAB lpAB) ∈ log chain idle 20 facReady [.msg user (plain (createMsg tA tB))] := by
  decide +kernel
example : ∃ n v f v' fs, step chain idle n v f = .ok (v', fs) ∧ (fac, .pairCreated pAB lpAB) ∈ said chain idle n v f := by
  obtain ⟨_, hr⟩ := runTx_inv firstPair_run
  obtain ⟨n, v, f, rest, h1, h2⟩ := mem_log .refl hr firstPair_log
  obtain ⟨_, v', fs, h3, h4, _⟩ := run_cons_inv (h1.run.trans hr)
  cases h3
  exact ⟨n, v, f, v', fs, h4, h2⟩

end Demo
end Halo
