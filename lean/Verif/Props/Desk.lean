import Verif.Spec.Desk
import Verif.Lemmas.DeskL
import Verif.Props.Cw20
import Verif.Props.Admin
/-! # The factory's administration, exactly (C64) -/

namespace Halo
open _root_.Halo.Spec

/-- The settings a factory stores. -/
structure Factory.State.HasDesk (c : Chain) (s : Factory.State) (d : Desk) : Prop where
  owner : c.api.human s.config.owner = some d.owner
  back : c.api.canon d.owner = some s.config.owner
  pairCode : s.config.pairCodeId = d.pairCode
  tokenCode : s.config.tokenCodeId = d.tokenCode
  decimals : s.allow.get = d.decimals

/-- C64: every factory has an owner. -/
theorem C64_has_owner {c : Chain} (hl : c.Lawful) {w : World} (hw : Reachable c w) {a : Addr} {adm : Option Addr}
    {s : Factory.State} (ha : w.contracts a = some ⟨adm, .factory s⟩) : ∃ d, s.HasDesk c d := by
  obtain ⟨o, h1, h2⟩ := (owners hl hw a adm s ha).owner
  exact ⟨⟨o, _, _, _⟩, h1, h2, rfl, rfl, rfl⟩

private theorem execute_desk {c : Chain} {q : Querier} {me : Addr} {s s' : Factory.State} {u : Addr} {m : ExecMsg}
    {r : Response} {d : Desk} (hd : s.HasDesk c d) (hm : Desk.Admin m)
    (hu : ∀ b o, c.api.canon u = some b → c.api.human b = some o → u = o)
    (h : Factory.execute c.api q me s u m = .ok (s', r)) :
    (∀ holds : Denom → Nat, (∀ n, q.balance me n = chk128 (.ok (holds n))) → d.May c.api.Valid holds u m) ∧
      s'.HasDesk c (d.after m) ∧ s'.pairs = s.pairs ∧
      r = { messages := (d.orders m).toList.map fun o => plain (.migrate o.1 o.2), events := Desk.says m } := by
  cases Factory.execute_inv h with
  | update o t p own hs hnone hsome =>
    have he := hu _ _ hs hd.owner
    refine ⟨fun _ _ => ⟨he, fun a e => (hsome a e).1⟩, ?_, rfl, rfl⟩
    cases o with
    | none =>
      cases hnone rfl
      exact ⟨hd.owner, hd.back, by simp [Desk.after, hd.pairCode], by simp [Desk.after, hd.tokenCode], hd.decimals⟩
    | some x =>
      obtain ⟨hv, hcx⟩ := hsome x rfl
      obtain ⟨_, b, h1, h2⟩ := validate_eq_ok.mp hv
      rw [hcx] at h1
      cases h1
      exact ⟨h2, hcx, by simp [Desk.after, hd.pairCode], by simp [Desk.after, hd.tokenCode], hd.decimals⟩
  | addNative n k b hs hb hpos =>
    refine ⟨fun holds hq => ⟨hu _ _ hs hd.owner, ?_⟩, ⟨hd.owner, hd.back, hd.pairCode, hd.tokenCode, ?_⟩, rfl, rfl⟩
    · rw [hq] at hb
      simp only [chk128, bind_eq_ok, require_eq_ok, pure_eq_ok, Except.ok.injEq, exists_eq_left'] at hb
      obtain ⟨_, h1, rfl⟩ := hb
      exact ⟨Nat.pos_of_ne_zero hpos, h1⟩
    · funext n'
      simp only [Desk.after, AMap.get_set, hd.decimals]
  | migrate k i hs => exact ⟨fun _ _ => hu _ _ hs hd.owner, hd, rfl, by simp [Desk.orders, Desk.says, hd.pairCode]⟩
  | create => cases hm

private theorem execute_of_desk {c : Chain} {q : Querier} {me : Addr} {s : Factory.State} {u : Addr} {m : ExecMsg}
    {d : Desk} (hd : s.HasDesk c d) {holds : Denom → Nat} (hq : ∀ n, q.balance me n = chk128 (.ok (holds n)))
    (h : d.May c.api.Valid holds u m) : ∃ res, Factory.execute c.api q me s u m = .ok res := by
  cases m <;> simp only [Desk.May] at h
  case updateConfig o t p =>
    obtain ⟨rfl, hv⟩ := h
    cases o with
    | none =>
      simp only [Factory.execute, Factory.updateConfig, Factory.checkOwner, bind_eq_ok, canonicalize_eq_ok, require_eq_ok]
      exact ⟨_, (), ⟨_, hd.back, rfl⟩, _, rfl, rfl⟩
    | some x =>
      obtain ⟨_, b, h1, h2⟩ := validate_eq_ok.mp (hv x rfl)
      simp only [Factory.execute, Factory.updateConfig, Factory.checkOwner, bind_eq_ok, canonicalize_eq_ok, require_eq_ok]
      exact ⟨_, (), ⟨_, hd.back, rfl⟩, _, ⟨_, hv x rfl, h1⟩, rfl⟩
  case addNativeTokenDecimals n k =>
    obtain ⟨rfl, h1, h2⟩ := h
    simp only [Factory.execute, Factory.addNativeTokenDecimals, Factory.checkOwner, bind_eq_ok, canonicalize_eq_ok,
      require_eq_ok, hq, chk128, pure_eq_ok, Except.ok.injEq]
    exact ⟨_, (), ⟨_, hd.back, rfl⟩, _, ⟨_, rfl, (), h2, rfl⟩, (), by omega, rfl⟩
  case migratePair k i =>
    subst h
    simp only [Factory.execute, Factory.migratePair, Factory.checkOwner, bind_eq_ok, canonicalize_eq_ok, require_eq_ok]
    exact ⟨_, (), ⟨_, hd.back, rfl⟩, rfl⟩

private theorem fac_call {c : Chain} {adv : Adv} {n : Nat} {v v' : World} {fs : List Frame} {u a : Addr}
    {m : ExecMsg} {funds : List Coin} (hr : c.api.resolve a = .ok a) {adm : Option Addr}
    {s : Factory.State} (ha : v.contracts a = some ⟨adm, .factory s⟩)
    (h : StepI c adv n v (.msg u (plain (.exec a m funds))) v' fs) :
    ∃ v1 s' r, moveCoins v u a funds = .ok v1 ∧ Factory.execute c.api (querier c (adv.query n) v1) a s u m = .ok (s', r) ∧
      v' = v1.setState a adm (.factory s') ∧ fs = frames a r := by
  unfold plain at h
  generalize hf : (⟨.exec a m funds, none⟩ : SubMsg) = sm at h
  cases h with
  | factory _ _ _ _ _ me w1 admin s1 s' r hme hmv hrr hc hx =>
    cases hf
    rw [hr] at hme
    cases hme
    rw [ha] at hc
    cases hc
    exact ⟨w1, s', r, hmv, hx, rfl, by simp [replyFrame]⟩
  | pair _ _ _ _ _ me w1 admin s1 s' r hme hmv hrr hc hx | token _ _ _ _ _ me w1 admin s1 s' r hme hmv hrr hc hx
  | router _ _ _ _ _ me w1 admin s1 s' r hme hmv hrr hc hx | other _ _ _ _ _ me w1 admin ms hme hmv hc =>
    cases hf
    rw [hr] at hme
    cases hme
    rw [ha] at hc
    cases hc
  | bank | inst | migrate | admin => cases hf

/-- C64: an administration message succeeds exactly if the attached coins can be paid, the caller is the owner, a new owner is
a valid address, and the factory then holds some of a denom to be registered. -/
theorem C64_call_iff {c : Chain} (hl : c.Lawful) {v : World} {u a : Addr} {m : ExecMsg} {funds : List Coin}
    (h : Happens c v (.msg u (plain (.exec a m funds)))) {adm : Option Addr} {s : Factory.State}
    (ha : v.contracts a = some ⟨adm, .factory s⟩) {d : Desk} (hd : s.HasDesk c d) (hm : Desk.Admin m)
    (hr : m.inRange = true) (adv : Adv) (n : Nat) :
    (∃ v' fs, step c adv n v (.msg u (plain (.exec a m funds))) = .ok (v', fs)) ↔
      ∃ v1, moveCoins v u a funds = .ok v1 ∧ d.May c.api.Valid (fun x => v1.bal x a) u m := by
  obtain ⟨_, hat, hact⟩ := happens_owners hl h
  obtain ⟨j, _, e⟩ := hat a _ ha
  have hres : c.api.resolve a = .ok a := by rw [e]; exact hl.resolve_addr j
  constructor
  · rintro ⟨v', fs, hs⟩
    obtain ⟨v1, s', r, h1, h2, _⟩ := fac_call hres ha (step_inv hs)
    exact ⟨v1, h1, (execute_desk hd hm hact h2).1 _ fun _ => rfl⟩
  · rintro ⟨v1, h1, h2⟩
    obtain ⟨⟨s', r⟩, hx⟩ := execute_of_desk (q := querier c (adv.query n) v1) (me := a) hd (fun _ => rfl) h2
    refine ⟨v1.setState a adm (.factory s'), frames a r, ?_⟩
    simp only [step, plain, bind_eq_ok, require_eq_ok, pure_eq_ok, Prod.exists, callExecute]
    refine ⟨a, hres, (), by rw [ha]; rfl, v1, h1, v1.setState a adm (.factory s'), frames a r,
      ⟨(), hr, ?_⟩, by simp only [replyFrame, List.append_nil]⟩
    rw [(moveCoins_inv h1).contracts, ha]
    simp only [bind_eq_ok, pure_eq_ok, Prod.exists]
    exact ⟨s', r, hx, rfl⟩

/-- C64: it changes the settings as specified, and besides moving the attached coins nothing else; it orders exactly the
specified migration. -/
theorem C64_call_effect {c : Chain} (hl : c.Lawful) {v : World} {u a : Addr} {m : ExecMsg} {funds : List Coin}
    (h : Happens c v (.msg u (plain (.exec a m funds)))) {adm : Option Addr} {s : Factory.State}
    (ha : v.contracts a = some ⟨adm, .factory s⟩) {d : Desk} (hd : s.HasDesk c d) (hm : Desk.Admin m) {adv : Adv} {n : Nat}
    {v' : World} {fs : List Frame} (hs : step c adv n v (.msg u (plain (.exec a m funds))) = .ok (v', fs)) :
    ∃ v1 s', moveCoins v u a funds = .ok v1 ∧ v' = v1.setState a adm (.factory s') ∧ s'.HasDesk c (d.after m) ∧
      s'.pairs = s.pairs ∧ fs = (d.orders m).toList.map fun o => .msg a (plain (.migrate o.1 o.2)) := by
  obtain ⟨_, hat, hact⟩ := happens_owners hl h
  obtain ⟨j, _, e⟩ := hat a _ ha
  have hres : c.api.resolve a = .ok a := by rw [e]; exact hl.resolve_addr j
  obtain ⟨v1, s', r, h1, h2, rfl, rfl⟩ := fac_call hres ha (step_inv hs)
  obtain ⟨_, h3, h4, rfl⟩ := execute_desk hd hm hact h2
  exact ⟨v1, s', h1, rfl, h3, h4, by simp [frames]⟩

/-- C64: a user's transaction changing the settings succeeds exactly if they may, whatever third-party code exists. -/
theorem C64_settings_iff {c : Chain} (hl : c.Lawful) {w : World} (hw : Reachable c w) {u a : Addr} (hu : c.IsUser u)
    {adm : Option Addr} {s : Factory.State} (ha : w.contracts a = some ⟨adm, .factory s⟩) {d : Desk} (hd : s.HasDesk c d)
    {m : ExecMsg} (hm : Desk.Admin m) (hq : d.orders m = none) (hr : m.inRange = true) (funds : List Coin) (adv : Adv) :
    (∃ gas w', runTx c adv gas w u (.exec a m funds) = .ok w') ↔
      ∃ v1, moveCoins w u a funds = .ok v1 ∧ d.May c.api.Valid (fun x => v1.bal x a) u m := by
  have hc := Happens.start hw hu (.exec a m funds) adv
  constructor
  · rintro ⟨gas, w', h⟩
    obtain ⟨n, h⟩ := runTx_inv h
    obtain ⟨k, v, fs, rfl, hs, _⟩ := run_cons_inv h
    exact (C64_call_iff hl hc ha hd hm hr adv k).mp ⟨v, fs, hs⟩
  · intro hp
    obtain ⟨v, fs, hs⟩ := (C64_call_iff hl hc ha hd hm hr adv 0).mpr hp
    obtain ⟨v1, s', _, rfl, _, _, rfl⟩ := C64_call_effect hl hc ha hd hm hs
    refine ⟨1, v1.setState a adm (.factory s'), ?_⟩
    simp only [runTx, bind_eq_ok, pure_eq_ok, Prod.exists]
    refine ⟨0, _, run_cons_of hs ?_, rfl⟩
    simp [hq, run_nil]

/-- C64: and it changes the settings as specified, moves the attached coins, and does nothing else. -/
theorem C64_settings_effect {c : Chain} (hl : c.Lawful) {w : World} (hw : Reachable c w) {u a : Addr} (hu : c.IsUser u)
    {adm : Option Addr} {s : Factory.State} (ha : w.contracts a = some ⟨adm, .factory s⟩) {d : Desk} (hd : s.HasDesk c d)
    {m : ExecMsg} (hm : Desk.Admin m) (hq : d.orders m = none) {funds : List Coin} {adv : Adv} {gas : Nat} {w' : World}
    (h : runTx c adv gas w u (.exec a m funds) = .ok w') :
    ∃ v1 s', moveCoins w u a funds = .ok v1 ∧ w' = v1.setState a adm (.factory s') ∧ s'.HasDesk c (d.after m) ∧
      s'.pairs = s.pairs := by
  obtain ⟨n, h⟩ := runTx_inv h
  obtain ⟨k, v, fs, rfl, hs, hr⟩ := run_cons_inv h
  obtain ⟨v1, s', h1, rfl, h2, h3, rfl⟩ := C64_call_effect hl (Happens.start hw hu _ adv) ha hd hm hs
  simp only [hq, Option.toList_none, List.map_nil, List.append_nil, run_nil, Except.ok.injEq, Prod.mk.injEq] at hr
  obtain ⟨_, rfl⟩ := hr
  exact ⟨v1, s', h1, rfl, h2, h3⟩

/-- The order to migrate `b` to `code` can be carried out by `a`: the code exists and `a` is the admin of `b`, which is then
the contract `x` with state `st`. -/
structure Migratable (c : Chain) (w : World) (a : Addr) (b : Str) (code : Nat) (k : Kind) (x : Addr) (st : CState) : Prop where
  code : c.codes code = some k
  addr : c.api.resolve b = .ok x
  admin : w.contracts x = some ⟨some a, st⟩

private theorem migrate_step {c : Chain} {adv : Adv} {n : Nat} {v v' : World} {a : Addr} {b : Str} {i : Nat} {fs : List Frame} :
    step c adv n v (.msg a (plain (.migrate b i))) = .ok (v', fs) ↔
      (∃ k x st, Migratable c v a b i k x st ∧ v' = v.setState x (some a) (migrateState k st)) ∧ fs = [] := by
  simp only [step, plain, bind_eq_ok, require_eq_ok, pure_eq_ok, okOr_eq_ok, Prod.mk.injEq, replyFrame]
  constructor
  · rintro ⟨k, h1, x, h2, ⟨adm, st⟩, h3, _, h4, rfl, rfl⟩
    simp only at h4
    subst h4
    exact ⟨⟨k, x, st, ⟨h1, h2, h3⟩, rfl⟩, rfl⟩
  · rintro ⟨⟨k, x, st, ⟨h1, h2, h3⟩, rfl⟩, rfl⟩
    exact ⟨k, h1, x, h2, _, h3, (), rfl, rfl, rfl⟩

private theorem setState_same {w : World} {a : Addr} {adm : Option Addr} {st : CState} (h : w.contracts a = some ⟨adm, st⟩) :
    w.setState a adm st = w := by
  simp only [World.setState, World.setContract]
  congr 1
  funext y
  split
  · rename_i e; rw [e, h]
  · rfl

/-- C64: a user's `MigratePair` succeeds exactly if they are the owner, the code exists, and the factory is the admin of the
contract; the contract then runs the given code, by default the current pair code, and nothing else changes. -/
theorem C64_migrate_iff {c : Chain} (hl : c.Lawful) {w : World} (hw : Reachable c w) {u a : Addr} (hu : c.IsUser u)
    {adm : Option Addr} {s : Factory.State} (ha : w.contracts a = some ⟨adm, .factory s⟩) {d : Desk} (hd : s.HasDesk c d)
    (b : Str) (code : Option Nat) (hr : optLt B64 code = true) (adv : Adv) (w' : World) :
    (∃ gas, runTx c adv gas w u (.exec a (.migratePair b code) []) = .ok w') ↔
      u = d.owner ∧ ∃ k x st, Migratable c w a b (code.getD d.pairCode) k x st ∧
        w' = w.setState x (some a) (migrateState k st) := by
  have hc := Happens.start hw hu (.exec a (.migratePair b code) []) adv
  have hiff := C64_call_iff hl hc ha hd (m := .migratePair b code) trivial hr adv
  have hres := (addr_facts hl hw ha).1
  have eff : ∀ {n : Nat} {v : World} {fs : List Frame},
      step c adv n w (.msg u (plain (.exec a (.migratePair b code) []))) = .ok (v, fs) →
      v = w ∧ fs = [.msg a (plain (.migrate b (code.getD d.pairCode)))] := by
    intro n v fs hs
    obtain ⟨v1, s', r, h1, h2, rfl, rfl⟩ := fac_call hres ha (step_inv hs)
    rw [moveCoins_nil] at h1
    subst h1
    cases Factory.execute_inv h2
    exact ⟨setState_same ha, by simp [frames, hd.pairCode]⟩
  constructor
  · rintro ⟨gas, h⟩
    obtain ⟨n, h⟩ := runTx_inv h
    obtain ⟨k, v, fs, rfl, hs, h⟩ := run_cons_inv h
    obtain ⟨v1, _, hp⟩ := (hiff k).mp ⟨v, fs, hs⟩
    obtain ⟨rfl, rfl⟩ := eff hs
    obtain ⟨k2, v2, fs2, rfl, hs2, h⟩ := run_cons_inv h
    obtain ⟨h3, rfl⟩ := migrate_step.mp hs2
    change run c adv k2 v2 [] = _ at h
    rw [run_nil] at h
    cases h
    exact ⟨hp, h3⟩
  · rintro ⟨rfl, h3⟩
    obtain ⟨v, fs, hs⟩ := (hiff 1).mpr ⟨w, moveCoins_nil.mpr rfl, rfl⟩
    obtain ⟨rfl, rfl⟩ := eff hs
    refine ⟨2, ?_⟩
    simp only [runTx, bind_eq_ok, pure_eq_ok, Prod.exists]
    exact ⟨0, _, run_cons_of hs (run_cons_of (migrate_step.mpr ⟨h3, rfl⟩) rfl), rfl⟩

/-- C64: the `Config` and `NativeTokenDecimals` queries answer the settings. -/
theorem C64_queries {c : Chain} {s : Factory.State} {d : Desk} (hd : s.HasDesk c d) :
    Factory.queryConfig c.api s = .ok (d.owner, d.pairCode, d.tokenCode) ∧
    ∀ n k, Factory.queryNativeTokenDecimals s n = .ok k ↔ d.decimals n = some k := by
  constructor
  · simp only [Factory.queryConfig, bind_eq_ok, humanize_eq_ok, pure_eq_ok]
    exact ⟨_, hd.owner, by rw [hd.pairCode, hd.tokenCode]⟩
  · intro n k
    rw [Factory.queryNativeTokenDecimals, okOr_eq_ok, hd.decimals]

/-! ## Concrete cases -/

namespace Demo

private theorem fac_desk : ∃ adm s d, deployed.contracts fac = some ⟨adm, .factory s⟩ ∧ s.HasDesk chain d ∧
    d.owner = user ∧ d.pairCode = 2 ∧ d.tokenCode = 1 ∧ d.decimals [117] = none := by
  have h : (match deployed.contracts fac with
      | some ⟨_, .factory s⟩ => decide (s.config.owner = user ∧ s.config.pairCodeId = 2 ∧ s.config.tokenCodeId = 1 ∧
          s.allow.get [117] = none)
      | _ => false) = true := by decide +kernel
  split at h
  · rename_i adm s he
    simp only [decide_eq_true_eq] at h
    obtain ⟨h1, h2, h3, h4⟩ := h
    exact ⟨adm, s, ⟨user, 2, 1, s.allow.get⟩, he, ⟨by rw [h1]; rfl, by rw [h1]; rfl, h2, h3, rfl⟩, rfl, rfl, rfl, h4⟩
  · cases h

/-- The owner can hand over the factory; the next owner can then register the native coin "u", of which the factory holds
nothing, only after sending some. -/
example (adv : Adv) : ∃ gas w', runTx chain adv gas deployed user (.exec fac (.updateConfig (some user2) none (some 9)) []) = .ok w' := by
  obtain ⟨adm, s, d, h1, h2, h3, _⟩ := fac_desk
  refine (C64_settings_iff lawful deployed_reachable isUser_user h1 h2
    (m := .updateConfig (some user2) none (some 9)) trivial rfl (by decide) [] adv).mpr
    ⟨_, moveCoins_nil.mpr rfl, h3.symm, fun a _ => validate_any _⟩

example (adv : Adv) :
    (∃ gas w', runTx chain adv gas deployed user (.exec fac (.addNativeTokenDecimals [117] 6) [⟨[117], 1⟩]) = .ok w') ∧
    ¬ ∃ gas w', runTx chain adv gas deployed user (.exec fac (.addNativeTokenDecimals [117] 6) []) = .ok w' := by
  obtain ⟨adm, s, d, h1, h2, h3, _⟩ := fac_desk
  rw [C64_settings_iff lawful deployed_reachable isUser_user h1 h2
      (m := .addNativeTokenDecimals [117] 6) trivial rfl (by decide) _ adv,
    C64_settings_iff lawful deployed_reachable isUser_user h1 h2
      (m := .addNativeTokenDecimals [117] 6) trivial rfl (by decide) _ adv]
  constructor
  · have h : isOk (moveCoins deployed user fac [⟨[117], 1⟩]) = true ∧
        (worldOf (moveCoins deployed user fac [⟨[117], 1⟩])).bal [117] fac = 1 := by decide +kernel
    exact ⟨_, worldOf_eq h.1, h3.symm, by simp only [h.2]; decide, by simp only [h.2]; decide⟩
  · rintro ⟨v1, hm, _, hp, _⟩
    rw [moveCoins_nil] at hm
    subst hm
    have : deployed.bal [117] fac = 0 := by decide +kernel
    simp only [this] at hp
    cases hp

/-- The owner can put a pair on other code. -/
example (adv : Adv) : ∃ gas w', runTx chain adv gas deployed user (.exec fac (.migratePair pAB (some 1)) []) = .ok w' := by
  obtain ⟨adm, s, d, h1, h2, h3, _⟩ := fac_desk
  have hp : (deployed.contracts pAB).map Contract.admin = some (some fac) := by decide +kernel
  simp only [Option.map_eq_some_iff] at hp
  obtain ⟨⟨ad, st⟩, hp, rfl⟩ := hp
  obtain ⟨gas, h⟩ := (C64_migrate_iff lawful deployed_reachable isUser_user h1 h2 pAB (some 1) (by decide) adv _).mpr
    ⟨h3.symm, _, _, _, ⟨(rfl : chain.codes 1 = some .token), PairSite.resolve_of_validate (validate_any _), hp⟩, rfl⟩
  exact ⟨gas, _, h⟩

end Demo
end Halo
