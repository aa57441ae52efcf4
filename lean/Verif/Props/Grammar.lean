import Verif.Lemmas.ShapeMsgL
/-! # C89: which texts are which messages -/

namespace Halo
open _root_.Halo.Spec
open ShapeL

/-- **C89.** The reader of JSON accepts exactly the texts of the grammar, and gives the value they are texts of; in particular no text
is the text of two values. -/
theorem C89_json (b : Bytes) (j : Json) : Json.parse b = some j ↔ JsonText b j := JsonTextL.parse_iff

/-- **C89**, execute messages: a contract reads bytes as a message exactly when they are a JSON text of a value of the message's
shape. -/
theorem C89_exec (k : Kind) (b : Bytes) (m : ExecMsg) : readExec k b = some m ↔ ∃ j, JsonText b j ∧ MsgShape k j m := exec_iff

/-- **C89**, instantiate messages. -/
theorem C89_inst (k : Kind) (b : Bytes) (m : InstMsg) : readInst k b = some m ↔ ∃ j, JsonText b j ∧ InstShape k j m := inst_iff

/-- **C89**, queries. -/
theorem C89_query (k : Kind) (b : Bytes) (m : QueryMsg) : readQuery k b = some m ↔ ∃ j, JsonText b j ∧ QueryShape k j m := query_iff

/-- **C89**, payloads of `Send` and `Receive`. -/
theorem C89_hook (b : Bytes) (h : HookMsg) :
    (readPairHook b = some h ↔ ∃ j, JsonText b j ∧ PairHook j h) ∧ (readRouterHook b = some h ↔ ∃ j, JsonText b j ∧ RouterHook j h) :=
  ⟨bytes_iff reads_pairHook, bytes_iff reads_routerHook⟩

/-- **C89**, the answers the contracts read when they ask one another or a foreign contract: whatever the asked contract replies, the
value used is the one its text has the shape of. -/
theorem C89_answer (bank : Addr → Denom → R Nat) (smart : Str → Bytes → R Bytes) (t a : Str) (d : Denom) (is : AssetInfo × AssetInfo)
    (x : Asset) :
    (∀ n, (byteQuerier bank smart).tokenBalance t a = .ok n ↔
      ∃ b j, smart t (writeQuery (.balance a)) = .ok b ∧ JsonText b j ∧ IsBalance j n) ∧
    (∀ i, (byteQuerier bank smart).tokenInfo t = .ok i ↔
      ∃ b j, smart t (writeQuery .tokenInfo) = .ok b ∧ JsonText b j ∧ IsTokenInfo j i) ∧
    (∀ n, (byteQuerier bank smart).nativeDecimals t d = .ok n ↔
      ∃ b j, smart t (writeQuery (.nativeTokenDecimals d)) = .ok b ∧ JsonText b j ∧ IsDecimals j n) ∧
    (∀ p, (byteQuerier bank smart).pairInfo t is = .ok p ↔
      ∃ b j, smart t (writeQuery (.pairOf is)) = .ok b ∧ JsonText b j ∧ IsPairInfo j p) ∧
    (∀ p, (byteQuerier bank smart).pairInfoFromPair t = .ok p ↔
      ∃ b j, smart t (writeQuery .pair) = .ok b ∧ JsonText b j ∧ IsPairInfo j p) ∧
    (∀ r, (byteQuerier bank smart).simulate t x = .ok r ↔
      ∃ b j, smart t (writeQuery (.simulation x)) = .ok b ∧ JsonText b j ∧ IsSimulation (asc "return_amount") j r) ∧
    ∀ r, (byteQuerier bank smart).reverseSimulate t x = .ok r ↔
      ∃ b j, smart t (writeQuery (.reverseSimulation x)) = .ok b ∧ JsonText b j ∧ IsSimulation (asc "offer_amount") j r := by
  have key : ∀ {α : Type} {f : Json → Option α} {P : Json → α → Prop} (_ : Reads f P) (m : QueryMsg) (v : α),
      ask smart t m f = .ok v ↔ ∃ b j, smart t (writeQuery m) = .ok b ∧ JsonText b j ∧ P j v := by
    intro α f P h m v
    unfold ask
    simp only [bind_eq_ok, okOr_eq_ok, bytes_iff h]
    exact ⟨fun ⟨b, h1, j, h2⟩ => ⟨b, j, h1, h2⟩, fun ⟨b, j, h1, h2⟩ => ⟨b, h1, j, h2⟩⟩
  exact ⟨fun _ => key reads_balance _ _, fun _ => key reads_tokenInfo _ _, fun _ => key reads_decimals _ _, fun _ => key reads_pairInfo _ _,
    fun _ => key reads_pairInfo _ _, fun _ => key (reads_simulation _) _ _, fun _ => key (reads_simulation _) _ _⟩

/-- The kind of a contract, from what it stores. -/
def CState.kind : CState → Kind
  | .token _ => .token
  | .pair _ => .pair
  | .factory _ => .factory
  | .router _ => .router
  | .other => .other

/-- **C89**, refusal: bytes that are not a text of one of its messages are refused by each of the four contracts, whoever sends them
and whatever comes with them. -/
theorem C89_refused (c : Chain) (adv : Adv) (n : Nat) (w : World) (self sender : Addr) (funds : List Coin) (b : Bytes) (x : Contract)
    (hx : w.contracts self = some x) (hk : x.state.kind ≠ .other) (h : ∀ j m, JsonText b j → ¬ MsgShape x.state.kind j m) :
    callBytes c adv n w self sender funds b = .error .parse := by
  have none_of : ∀ k, (∀ j m, JsonText b j → ¬ MsgShape k j m) → readExec k b = none := fun k hk => by
    cases e : readExec k b with
    | none => rfl
    | some m => obtain ⟨j, hj, hm⟩ := exec_iff.1 e; exact absurd hm (hk j m hj)
  obtain ⟨admin, st⟩ := x
  have hn := none_of _ h
  unfold callBytes
  rw [hx]
  cases st with
  | other => exact absurd rfl hk
  | token s => simp only [CState.kind] at hn; simp only [hn]; rfl
  | pair s => simp only [CState.kind] at hn; simp only [hn]; rfl
  | factory s => simp only [CState.kind] at hn; simp only [hn]; rfl
  | router s => simp only [CState.kind] at hn; simp only [hn]; rfl

/-! ## Examples -/

/-- White space, fields out of order, an escaped letter, a plus sign: the router still reads the check of a route's proceeds. -/
def oddText : Bytes :=
  asc " {\"assert_minimum_receive\" : {\"receiver\":\"\\u0062ob\",\"prev_balance\":" ++
  asc "\"+07\",\"minimum_receive\":\"30\",\n\"asset_info\":{\"native_token\":{\"denom\":\"ur\"}}}}\t"

theorem oddText_read : ∃ j, JsonText oddText j ∧ MsgShape .router j (.assertMinimumReceive (.native (asc "ur")) 7 30 (asc "bob")) :=
  (C89_exec _ _ _).1 (by decide +kernel)

/-- Three assets are no deposit. -/
theorem three_assets (a b c : Json) (l : List (Str × Json)) (h : (asc "assets", Json.arr (.cons a (.cons b (.cons c .nil)))) ∈ l)
    (hl : (l.map Prod.fst).Nodup) (as : Asset × Asset) : ¬ Has l (asc "assets") (IsTwo IsAsset) as := by
  rintro ⟨j, hj, js, rfl, hf⟩
  have := (lookup_iff hl).2 h
  rw [(lookup_iff hl).2 hj] at this
  cases Option.some.inj this
  cases hf with
  | cons _ hf => cases hf with
    | cons _ hf => cases hf

/-- A message cut off before its end is no text of any message: the hypothesis of `C89_refused` is met. -/
example (k : Kind) : ∀ j m, JsonText (asc "{\"burn\":{\"amount\":\"5\"}") j → ¬ MsgShape k j m := fun j m h _ => by
  have e : Json.parse (asc "{\"burn\":{\"amount\":\"5\"}") = none := by decide +kernel
  rw [(C89_json _ _).2 h] at e
  cases e

/-- A fraction with a plus sign after the dot, which counts as one of the digits. -/
example : FractionText (asc "0.+5") 50000000000000000 := fraction_iff.1 (by decide +kernel)

end Halo
