import Verif.Lemmas.QueryCodecL4
import Verif.Lemmas.ByteChainL
/-! # C84: queries on the wire; the chain of bytes -/

namespace Halo
open _root_.Halo.Spec
open QueryCodec

/-- **C84**, requests: the queries a contract can be asked are exactly those of its interface whose numbers fit; what is written for
one is read back. -/
theorem C84_requests (k : Kind) (m : QueryMsg) :
    ((∃ b, readQuery k b = some m) ↔ Asks k m ∧ FitsAll (queryNumbers m)) ∧
      (readQuery k (writeQuery m) = some m ↔ Asks k m ∧ FitsAll (queryNumbers m)) ∧
      (¬ (Asks k m ∧ FitsAll (queryNumbers m)) → readQuery k (writeQuery m) = none) :=
  ⟨⟨fun ⟨_, h⟩ => read_inv h, fun h => ⟨_, read_some h.1 h.2⟩⟩, ⟨read_inv, fun h => read_some h.1 h.2⟩, read_refused⟩

namespace ByteChain

theorem look {c : Chain} {w : World} {a : Str} {t : Addr} {adm : Option Addr} {s : CState} (hr : c.api.resolve a = .ok t)
    (h : w.contracts t = some ⟨adm, s⟩) : lookState c w a = .ok s := by
  unfold lookState
  rw [hr]
  show (okOr (w.contracts t) .notFound >>= fun ct => pure ct.state) = _
  rw [h]; rfl

end ByteChain
open ByteChain

/-- **C84**, the token: whoever asks a token by bytes reads exactly what the token computed, for every query of its interface. -/
theorem C84_token {c : Chain} {w : World} (hw : Reachable c w) {a : Str} {t : Addr} {adm : Option Addr} {s : TokenState}
    (hr : c.api.resolve a = .ok t) (h : w.contracts t = some ⟨adm, .token s⟩) (foreign : Str → Bytes → R Bytes) (n : Nat) :
    (∀ x, ask (smart c foreign w n) a (.balance x) asBalance = Token.queryBalance c.api s x) ∧
    ask (smart c foreign w n) a .tokenInfo asTokenInfo = .ok (Token.queryTokenInfo s) ∧
    ask (smart c foreign w n) a .minter asMinterOpt = .ok (Token.queryMinter s) ∧
    (∀ o p, ask (smart c foreign w n) a (.allowance o p) asAllowanceA =
      (do let o ← c.api.validate o; let p ← c.api.validate p; return Token.queryAllowance s o p)) ∧
    (∀ o st l, (∀ i, l = some i → i < B32) → ask (smart c foreign w n) a (.allAllowances o st l) (asGrants (asc "spender")) =
      Token.queryOwnerAllowances c.api s o st l) ∧
    (∀ o st l, (∀ i, l = some i → i < B32) → ask (smart c foreign w n) a (.allSpenderAllowances o st l) (asGrants (asc "owner")) =
      Token.querySpenderAllowances c.api s o st l) ∧
    (∀ st l, (∀ i, l = some i → i < B32) → ask (smart c foreign w n) a (.allAccounts st l) asAccounts =
      .ok (Token.queryAllAccounts s st l)) := by
  have hs := smart_token (foreign := foreign) (look hr h) n
  have ht : Wire.Tok s := Wire.tok_iff.mp (C82_stored hw h)
  have hal : ∀ k al, s.allowances.get k = some al → al.amount < B128 ∧ al.expires.fits := fun k al hg =>
    ⟨ht.all _ (get_mem hg), expires_fits (ht.exp _ (get_mem hg))⟩
  refine ⟨fun x => ?_, ?_, ?_, fun o p => ?_, fun o st l hl => ?_, fun o st l hl => ?_, fun st l hl => ?_⟩
  · refine ask_client hs (m := .balance x) trivial (fitsNone rfl) (J := balanceJ) rfl fun v hv => ?_
    rw [asBalance_J, if_pos]
    simp only [Token.queryBalance, bind_eq_ok, pure_eq_ok] at hv
    obtain ⟨_, _, rfl⟩ := hv
    exact ht.getD0 _
  · refine ask_client hs (m := .tokenInfo) trivial (fitsNone rfl) (J := tokenInfoJ) rfl fun v hv => ?_
    cases hv
    rw [asTokenInfo_J, if_pos ⟨ht.dec, ht.sup⟩]
  · refine ask_client hs (m := .minter) trivial (fitsNone rfl) (J := minterOptJ) rfl fun v hv => ?_
    cases hv
    refine asMinterOpt_J _ fun m i hm hc => ?_
    have := ht.cap
    unfold Token.queryMinter at hm
    rw [hm] at this
    rw [show (some m : Option MinterData).bind (·.cap) = some i from hc] at this
    exact of_decide_eq_true this
  · refine ask_client hs (m := .allowance o p) trivial (fitsNone rfl) (J := allowanceJ) ?_ fun v hv => ?_
    · show (c.api.validate o >>= fun o => c.api.validate p >>= fun p => pure (allowanceJ (Token.queryAllowance s o p))) = _
      cases c.api.validate o with
      | error e => rfl
      | ok o => cases c.api.validate p <;> rfl
    · simp only [bind_eq_ok, pure_eq_ok] at hv
      obtain ⟨o, _, p, _, rfl⟩ := hv
      unfold Token.queryAllowance
      cases hg : s.allowances.get (o, p) with
      | none => exact asAllowance_J _ (by norm_num [B128]) trivial
      | some al => exact asAllowance_J _ (hal _ _ hg).1 (hal _ _ hg).2
  · refine ask_client hs (m := .allAllowances o st l) trivial (fits_limit (l := l) (by cases l <;> rfl) hl)
      (J := grantsJ (asc "spender")) rfl fun v hv => asGrantsBySpender_J _ fun e he => ?_
    simp only [Token.queryOwnerAllowances, bind_eq_ok, pure_eq_ok] at hv
    obtain ⟨o, _, rfl⟩ := hv
    have := Token.mem_ordered.mp (mem_pageOf he)
    rw [Token.get_grantsBy] at this
    exact hal _ _ this
  · refine ask_client hs (m := .allSpenderAllowances o st l) trivial (fits_limit (l := l) (by cases l <;> rfl) hl)
      (J := grantsJ (asc "owner")) rfl fun v hv => asGrantsByOwner_J _ fun e he => ?_
    simp only [Token.querySpenderAllowances, bind_eq_ok, pure_eq_ok] at hv
    obtain ⟨o, _, rfl⟩ := hv
    have := Token.mem_ordered.mp (mem_pageOf he)
    rw [Token.get_grantsTo] at this
    exact hal _ _ this
  · exact ask_client hs (m := .allAccounts st l) trivial (fits_limit (l := l) (by cases l <;> rfl) hl) (J := accountsJ) rfl
      fun v _ => asAccounts_J _

/-- **C84**, the pair: the same; its answers about the pool rest on questions it asks itself, by bytes, one level down. -/
theorem C84_pair {c : Chain} {w : World} (hw : Reachable c w) {a : Str} {t : Addr} {adm : Option Addr} {s : Pair.State}
    (hr : c.api.resolve a = .ok t) (h : w.contracts t = some ⟨adm, .pair s⟩) (foreign : Str → Bytes → R Bytes) (n : Nat) :
    ask (smart c foreign w (n + 1)) a .pair asPairInfo = Pair.queryPairInfo c.api s ∧
    ask (smart c foreign w (n + 1)) a .pool asPool = Pair.queryPool c.api (querier c (heardQuerier foreign) w) s ∧
    (∀ x : Asset, x.amount < B128 → ask (smart c foreign w (n + 1)) a (.simulation x) (asSim (asc "return_amount")) =
      Pair.querySimulation c.api (querier c (heardQuerier foreign) w) s x) ∧
    (∀ x : Asset, x.amount < B128 → ask (smart c foreign w (n + 1)) a (.reverseSimulation x) (asSim (asc "offer_amount")) =
      Pair.queryReverseSimulation c.api (querier c (heardQuerier foreign) w) s x) := by
  have hs := smart_pair (foreign := foreign) (look hr h) n
  have hp : FitsAll (pairNumbers s) := C82_stored hw h
  have hq := wire_same c foreign w n
  refine ⟨?_, ?_, fun x hx => ?_, fun x hx => ?_⟩
  · refine ask_client hs (m := .pair) trivial (fitsNone rfl) (J := pairInfoJ) rfl fun v hv => ?_
    rw [asPairInfo_J, if_pos (pairInfo_back hp hv)]
  · refine ask_client hs (m := .pool) trivial (fitsNone rfl) (J := poolJ) ?_ fun v hv => ?_
    · rw [← hq.pool]; rfl
    · obtain ⟨h1, h2, h3⟩ := pool_lt hv
      exact asPool_J _ h1 h2 h3
  · refine ask_client hs (m := .simulation x) trivial ((fits128 rfl).mpr hx) (J := simJ (asc "return_amount")) ?_ fun v hv => ?_
    · rw [← hq.simulation]; rfl
    · rw [asSimFwd_J, if_pos (simulation_lt hv)]
  · refine ask_client hs (m := .reverseSimulation x) trivial ((fits128 rfl).mpr hx) (J := simJ (asc "offer_amount")) ?_ fun v hv => ?_
    · rw [← hq.reverseSimulation]; rfl
    · rw [asSimRev_J, if_pos (reverseSimulation_lt hv)]

/-- **C84**, the factory: the same. -/
theorem C84_factory {c : Chain} {w : World} (hw : Reachable c w) {a : Str} {t : Addr} {adm : Option Addr} {s : Factory.State}
    (hr : c.api.resolve a = .ok t) (h : w.contracts t = some ⟨adm, .factory s⟩) (foreign : Str → Bytes → R Bytes) (n : Nat) :
    ask (smart c foreign w n) a .config asConfig = Factory.queryConfig c.api s ∧
    (∀ is, ask (smart c foreign w n) a (.pairOf is) asPairInfo = Factory.queryPair c.api s is) ∧
    (∀ st l, (∀ i, l = some i → i < B32) → ask (smart c foreign w n) a (.pairs st l) asPairs = Factory.queryPairs c.api s st l) ∧
    (∀ d, ask (smart c foreign w n) a (.nativeTokenDecimals d) asDecimals = Factory.queryNativeTokenDecimals s d) := by
  have hs := smart_factory (foreign := foreign) (look hr h) n
  have hf : FitsAll (storedNumbers (.factory s)) := C82_stored hw h
  simp only [storedNumbers, Wire.fitsAll_append, Wire.fitsAll_cons, Wire.fitsAll_nil, and_true, Wire.fitsAll_flatMap,
    Wire.fitsAll_map] at hf
  obtain ⟨⟨⟨⟨h1, h2⟩, _⟩, h4⟩, h5⟩ := hf
  refine ⟨?_, fun is => ?_, fun st l hl => ?_, fun d => ?_⟩
  · refine ask_client hs (m := .config) trivial (fitsNone rfl) (J := configJ) rfl fun v hv => ?_
    simp only [Factory.queryConfig, bind_eq_ok, pure_eq_ok] at hv
    obtain ⟨_, _, rfl⟩ := hv
    exact asConfig_J _ h1 h2
  · refine ask_client hs (m := .pairOf is) trivial (fitsNone rfl) (J := pairInfoJ) rfl fun v hv => ?_
    simp only [Factory.queryPair, bind_eq_ok, okOr_eq_ok] at hv
    obtain ⟨_, _, _, _, p, hp, hv⟩ := hv
    rw [asPairInfo_J, if_pos (pairInfo_back (h4 _ (get_mem hp)) hv)]
  · refine ask_client hs (m := .pairs st l) trivial (fits_limit (l := l) (by cases l <;> rfl) hl) (J := pairsJ) rfl fun v hv =>
      asPairs_J _ fun i hi => ?_
    obtain ⟨e, he, hn⟩ := mem_readPairs hv i hi
    exact pairInfo_back (h4 _ he) hn
  · refine ask_client hs (m := .nativeTokenDecimals d) trivial (fitsNone rfl) (J := decimalsJ) rfl fun v hv => ?_
    rw [Factory.queryNativeTokenDecimals, okOr_eq_ok] at hv
    have : v < 256 := h5 _ (get_mem hv)
    rw [asDecimals_J, if_pos this]

/-- **C84**, the router: the same; a route is simulated by asking the factory and, one level further down, the pairs. -/
theorem C84_router {c : Chain} {w : World} {a : Str} {t : Addr} {adm : Option Addr} {s : Router.State}
    (hr : c.api.resolve a = .ok t) (h : w.contracts t = some ⟨adm, .router s⟩) (foreign : Str → Bytes → R Bytes) (n : Nat) :
    ask (smart c foreign w (n + 1)) a .config asRouterConfig = Router.queryConfig c.api s ∧
    (∀ x ops, x < B128 → ask (smart c foreign w (n + 2)) a (.simulateSwapOperations x ops) asAmount =
      Router.simulateSwapOperations c.api (querier c (heardQuerier foreign) w) s x ops) ∧
    (∀ x ops, x < B128 → ask (smart c foreign w (n + 2)) a (.reverseSimulateSwapOperations x ops) asAmount =
      Router.reverseSimulateSwapOperations c.api (querier c (heardQuerier foreign) w) s x ops) := by
  have hs := smart_router (foreign := foreign) (look hr h)
  refine ⟨?_, fun x ops hx => ?_, fun x ops hx => ?_⟩
  · exact ask_client (hs n) (m := .config) trivial (fitsNone rfl) (J := routerConfigJ) rfl fun v _ => asRouterConfig_J v
  · refine ask_client (hs (n + 1)) (m := .simulateSwapOperations x ops) trivial ((fits128 rfl).mpr hx) (J := amountJ) ?_ fun v hv => ?_
    · show (Router.simulateSwapOperations c.api (wireQuerier c foreign w (n + 1)) s x ops >>= fun v => pure (amountJ v)) = _
      unfold Router.simulateSwapOperations
      simp only [wire_simulateLoop c foreign w n _ _ _ hx]
    · simp only [Router.simulateSwapOperations, bind_eq_ok] at hv
      obtain ⟨f, _, _, _, hv⟩ := hv
      rw [asAmount_J, if_pos (loop_lt c foreign w _ _ _ hx hv)]
  · refine ask_client (hs (n + 1)) (m := .reverseSimulateSwapOperations x ops) trivial ((fits128 rfl).mpr hx) (J := amountJ) ?_ fun v hv => ?_
    · show (Router.reverseSimulateSwapOperations c.api (wireQuerier c foreign w (n + 1)) s x ops >>= fun v => pure (amountJ v)) = _
      unfold Router.reverseSimulateSwapOperations
      rw [wire_reverseLoop c foreign w n _ _ _ hx]
    · simp only [Router.reverseSimulateSwapOperations, bind_eq_ok] at hv
      obtain ⟨_, _, hv⟩ := hv
      rw [asAmount_J, if_pos (reverseLoop_lt c foreign w _ _ _ hx hv)]

/-- **C84**, the contracts' own questions: asking with bytes, to any depth, gives the same answers as the typed querier on which all the
other claims rest (for simulations: at least one level of nesting allowed, amount in range). -/
theorem C84_querier (c : Chain) (foreign : Str → Bytes → R Bytes) (w : World) (n : Nat) :
    (wireQuerier c foreign w n).balance = (querier c (heardQuerier foreign) w).balance ∧
    (wireQuerier c foreign w n).tokenBalance = (querier c (heardQuerier foreign) w).tokenBalance ∧
    (wireQuerier c foreign w n).tokenInfo = (querier c (heardQuerier foreign) w).tokenInfo ∧
    (wireQuerier c foreign w n).nativeDecimals = (querier c (heardQuerier foreign) w).nativeDecimals ∧
    (wireQuerier c foreign w n).pairInfo = (querier c (heardQuerier foreign) w).pairInfo ∧
    (wireQuerier c foreign w n).pairInfoFromPair = (querier c (heardQuerier foreign) w).pairInfoFromPair ∧
    (∀ p (a : Asset), a.amount < B128 → (wireQuerier c foreign w (n + 1)).simulate p a = (querier c (heardQuerier foreign) w).simulate p a) ∧
    (∀ p (a : Asset), a.amount < B128 →
      (wireQuerier c foreign w (n + 1)).reverseSimulate p a = (querier c (heardQuerier foreign) w).reverseSimulate p a) :=
  have h := wire_same c foreign w n
  ⟨h.1, h.2, h.3, h.4, h.5, h.6, wire_simulate c foreign w n, wire_reverseSimulate c foreign w n⟩

/-- **C84**, transactions: from a reachable state, a transaction of bytes (in which contracts, users and third-party code exchange only
bytes, messages and queries alike) succeeds exactly when the typed transaction it stands for does, with the same final state. -/
theorem C84_tx {c : Chain} {w : World} (hw : Reachable c w) (adv : RawAdv) (gas : Nat) (signer : Addr) (m : RawMsg) (w' : World) :
    runTxRaw c adv gas w signer m = .ok w' ↔ runTx c adv.heard gas w signer m.heard = .ok w' := by
  have ht : Wire.Typed w := fun a adm s ha => C82_stored hw ha
  have key : ∀ r, run c adv.heard gas w [.msg signer ⟨m.heard, none⟩] = .ok r ↔ runRaw c adv gas w [.msg signer ⟨m, none⟩] = .ok r :=
    fun r => run_iff gas ht [.msg signer ⟨m, none⟩]
  unfold runTxRaw runTx
  simp only [bind_eq_ok, pure_eq_ok, ← key]
  exact Iff.rfl

/-- **C84**, transactions: the same for a typed message, written as text. -/
theorem C84_tx_typed {c : Chain} {w : World} (hw : Reachable c w) (adv : RawAdv) (gas : Nat) (signer : Addr) (m : CosmosMsg)
    (hm : OnWire m) (w' : World) : runTxRaw c adv gas w signer m.sent = .ok w' ↔ runTx c adv.heard gas w signer m = .ok w' := by
  rw [C84_tx hw]
  have : (Frame.msg signer ⟨m, none⟩).sent.heard = .msg signer ⟨m, none⟩ := sent_heard hm
  injection this with _ h
  injection h with h _
  rw [show m.sent.heard = m from h]

/-- **C84**, histories: every state the chain of bytes can reach is one the typed chain can reach; so everything proved of reachable
states holds of the chain of bytes. -/
theorem C84_reachable {c : Chain} {w : World} (h : RawReachable c w) : Reachable c w := by
  induction h with
  | genesis w h => exact .genesis w h
  | step w w' _ hs ih =>
    refine .step w w' ih ?_
    cases hs with
    | tx adv gas w w' signer m huser h => exact .tx adv.heard gas w w' signer m.heard huser ((C84_tx ih adv gas signer m w').mp h)
    | block w b => exact .block w b
    | env w bank' h => exact .env w bank' h

/-! ### Concrete texts -/

example : readQuery .token (asc "{\"balance\":{\"address\":\"bob\"}}") = some (.balance (asc "bob")) := by decide +kernel
example : readQuery .factory (asc "{\"pairs\":{\"limit\":5}}") = some (.pairs none (some 5)) := by decide +kernel
example : writeQuery (.pairOf (.native (asc "aura"), .token (asc "tok"))) =
    asc "{\"pair\":{\"asset_infos\":[{\"native_token\":{\"denom\":\"aura\"}},{\"token\":{\"contract_addr\":\"tok\"}}]}}" := by decide +kernel

/-- Refused: a query of another contract, a limit of `2^32`, an unknown field. -/
example : readQuery .pair (asc "{\"balance\":{\"address\":\"bob\"}}") = none ∧
    readQuery .token (asc "{\"all_accounts\":{\"limit\":4294967296}}") = none ∧
    readQuery .pair (asc "{\"pool\":{\"x\":1}}") = none := by decide +kernel

namespace Demo

/-- Third-party contracts that do nothing and answer nothing. -/
def silent : RawAdv := { act := fun _ _ => .ok [], query := fun _ _ _ => .error .notFound }

/-- One transaction of bytes after the other. -/
def rawRuns : List RawMsg → World → R World
  | [], w => .ok w
  | m :: t, w => do
    let w ← runTxRaw chain silent 20 w user m
    rawRuns t w

theorem rawRuns_reachable {l : List RawMsg} : ∀ {w w' : World}, RawReachable chain w → rawRuns l w = .ok w' → RawReachable chain w' := by
  induction l with
  | nil => intro w w' hw h; cases h; exact hw
  | cons m t ih =>
    intro w w' hw h
    simp only [rawRuns, bind_eq_ok] at h
    obtain ⟨w1, h1, h2⟩ := h
    exact ih (.step _ _ hw (.tx silent 20 w w1 user m isUser_user h1)) h2

/-- The whole deployment of the demo (three tokens, a factory, two pairs, a router, liquidity) goes through as text. -/
example : ∃ w, RawReachable chain w ∧ (w.contracts pBC).isSome = true := by
  have h : ((val (rawRuns (setup.map CosmosMsg.sent) genesis)).map fun w => (w.contracts pBC).isSome) = some true := by decide +kernel
  rw [Option.map_eq_some_iff] at h
  obtain ⟨w, h1, h2⟩ := h
  exact ⟨w, rawRuns_reachable (.genesis _ ⟨rfl, fun _ => rfl⟩) (val_eq h1), h2⟩

/-- The user's two-hop route, written as text: the chain of bytes executes it. -/
example : (val (runTxRaw chain silent 40 deployed user twoHops.sent)).isSome = true := by decide +kernel

/-- A client reads the pool of the first pair and simulates a route through the router. -/
example : (val (ask (smart chain (fun _ _ => .error .notFound) deployed 3) pAB .pool asPool)).isSome = true ∧
    (val (ask (smart chain (fun _ _ => .error .notFound) deployed 2) rou
      (.simulateSwapOperations 100 [⟨.token tA, .token tB⟩, ⟨.token tB, .token tC⟩]) asAmount)).isSome = true := by decide +kernel

/-- A token's answers as text. -/
example : val (smart chain (fun _ _ => .error .notFound) deployed 0 tA (asc "{\"marketing_info\":{}}")) =
      some (asc "{\"project\":null,\"description\":null,\"logo\":null,\"marketing\":null}") ∧
    val (smart chain (fun _ _ => .error .notFound) deployed 0 tA (asc "{\"balance\":{\"address\":\"bob\"}}")) =
      some (asc "{\"balance\":\"0\"}") := by decide +kernel

/-- Two levels of nesting are needed to simulate a route: with one, the pairs cannot ask for their pools. -/
example : val (ask (smart chain (fun _ _ => .error .notFound) deployed 1) rou
      (.simulateSwapOperations 100 [⟨.token tA, .token tB⟩]) asAmount) = none := by decide +kernel

end Demo
end Halo
