# Formal model of the Halotrade contracts (Lean 4)

Target: `/repo` (CosmWasm contracts `halo-pair`, `halo-factory`, `halo-router`, `halo-token`,
packages `haloswap`, `bignumber`). Everything below lives in `/verif/lean/Verif`.

## 1. Architecture of the model

* `Base` – error type (every `Err(..)`, every `panic!`/`assert!`/overflow is an explicit error value),
  the result monad `R := Except Err`, association maps.
* `Num` – `bignumber` (`Uint256`, `Decimal256`) and the cosmwasm `Uint128`/`Decimal` operations used by
  the contracts, on raw naturals, with every overflow / underflow / zero-divisor panic explicit.
* `DecStr` – `FromStr`/`Display` for `Decimal256` at byte level.
* `Types` – assets, messages, queries; `Api` (address codec) is a parameter.
* `Token`, `Pair`, `Factory`, `Router` – one Lean function per Rust function, each citing its lines.
  Contracts see the world only through a `Querier` (one field per function of `querier.rs`).
* `Chain` – the CosmWasm host: bank, contract store, depth-first message dispatch as a stack machine
  (`run`), submessages and replies, atomic transactions, gas as fuel, and *arbitrary third-party
  contracts* (`CState.other`): an oracle chooses the messages they emit and the answers they give,
  so re-entrancy and lying tokens are covered. `Reachable` = all histories of transactions by any user,
  new blocks, and outside changes of native balances.
* `Json`, `Codec`, `QueryCodec`, `ByteChain` – messages, queries and answers as JSON texts, and the chain with bytes in place of typed values.
* `Spec/*` – small independent specifications (no reference to the model's helpers) used in statements.
* `Props/*` – the property theorems, each with a non-vacuity example; helper lemmas are in `Lemmas/*`.

How the layers connect: a lemma per entry point says exactly what a successful call implies
(`*_inv`, `*_ok_iff`); `Lemmas/RunL` gives induction principles for `run` (one frame at a time, with the
rest of the stack) and for `Reachable`; invariants are proved for one frame and lifted.

## 2. Plan and result per property

"False" means: a witness for the negation is proved (a `_counterexample` theorem, evaluated by the kernel on
the model), next to the strongest true version I found (`_partial` when that is weaker than the claim).

Pricing arithmetic (C01–C09): a closed form of `compute_swap`/`compute_offer_amount`
(`computeSwap o a x = ok r ↔ explicit conditions ∧ explicit formulas`) is proved from the
operation-by-operation model, then each law is proved over all naturals / 128-bit integers.
  * C01 is **false** (18-digit truncation can round in the trader's favour when offer reserve + offer > 10^18
    and the gross output is below 334 units, so that no commission is charged). Proved: witness, the law
    whenever a commission is charged or the new offer reserve is at most 10^18, and a loss bound for all swaps.
    The same for whole transactions (`C01_swap_tx_partial`, …) and for histories of any number of swaps
    (`C01_swaps_keep_product_partial`; C54 is the consequence that no sequence of swaps extracts value).
    `Props/Exact` says exactly when the product falls, from the reserves and the offer alone: `o*a/(o+x)` is less than
    334 below `a`, not whole, and exceeds a whole number by less than `10^-18` (`C01_exact_partial`,
    `C01_swap_tx_exact_partial`). Without such swaps C01, C20 and C22 hold for assets of any size (`*_no_leak_partial`).
  * C02 holds; an ask reserve of dust can be drained completely (`C02_dust_drained`).
  * C04, C05, C06 hold for all inputs. (C06 was first suspected false; the two roundings cannot add up.)
    `Props/Swap` restates C01, C02, C04, C05, C06 for whole transactions, comparing balances only: seeded bugs in
    the wiring of `swap` (not in `compute_swap`) did not break the arithmetic theorems.
  * C07 is proved for whole transactions: quoted numbers, reported numbers and balance changes agree.
  * C08 holds as a pair of bounds; "the quoted offer suffices" is false (witness).
  * C09 is **false** (overflow of `cp*10^18` and price-truncation underflow); witnesses + exact success domain.

Guards (C10–C14, C18, C19, C23, C24, C33): decision logic stated about the entry points.
  * C12 is **false** (the decimal scaling overflows even without a limit); exact condition proved.
  * C14 is **false** (a tolerance divides by an empty reserve); proved without tolerance. `C57_first_deposit_exact_partial`
    is the exact condition for a prepared deposit into an empty pool, with or without a tolerance.

Liquidity (C15–C17, C26): floor arithmetic over all inputs of the entry point functions.
  * C17 is proved for pools with LP tokens outstanding, as it is stated (`C17_no_gain`). Beyond that it is **false**:
    the first deposit into a pool that already holds donated coins gains exactly these (`C17_first_takes_all`;
    `C17_gain_iff` is the exact condition).

Histories (C20–C22, C27–C31, C37, C38, C41, C45, C51): invariants by induction over `run` and `Reachable`.
  * C21 is a refinement: `Lemmas/TraceL` records every executed message; the requests among them that reach a
    pair, in order, drive the independent pool machine in `Spec/Pool`, and `(reserve0, reserve1, supply)` of the
    pair equals the state of that machine. In between reserves can only grow and the supply can only shrink.
    (A first version only said that *some* sequence of pool moves leads from one state to the other, which is
    nearly always true; see the seeded bug log.)
  * C20, C22 inherit the C01 defect: **false** in general (chain histories), proved for every history when at
    most 10^18 units of each asset exist. C52 is what remains true for all sizes.
  * C38 holds in every history, even when the factory is configured with hostile code ids.
  * C41 is **false** when the factory creates a pair while one of its two code ids is foreign code: the
    pending creation sits in a single storage slot, which a foreign LP token overwrites by re-entering
    `CreatePair` (witness history). Proved, field by field, for every other history.
  * C53 follows a `CreatePair` transaction through all five dispatched messages and states everything it leaves
    behind. (Added because no theorem noticed a seeded bug that lost the requested requirements.)

Whole liquidity transactions (`Props/LiquidityTx`): the effect of a deposit or withdrawal signed by a user on every
balance of every account is stated exactly (C13, C15–C19, C23, C26 again, comparing balances only).

Liveness (C55–C57, `Lemmas/LiveL`, `Props/Live`): when a transaction *succeeds*. These close the gap left by theorems of
the form "if it succeeded, then …", which a model refusing everything would satisfy.
  * C55, C56 are equivalences. Consequence of C55: LP amounts whose refund of either asset rounds to zero cannot leave.
  * C57 is **false** for the first deposit: `deposits[0].u128() * deposits[1].u128()` overflows, so a first deposit with
    `d0*d1 ≥ 2^128` is refused whoever makes it; proved below that.

Price impact (C58, `Props/Impact`): monotonicity of the rounded price in both reserves, lifted to simulation queries of any
two reachable states and, with the exact effect of a swap transaction, to what happens after a trade and to front-running.

Routes (C59, C60, `Lemmas/RouteL`, `Props/Route`): C59 by induction over the hops with the monotone price of one hop; a
reverse quote usually falls short by some units (witness). C60 is an equivalence; the induction carries the router's balances
from hop to hop (`RouteSt.next`), once to construct the run (`live`), once to read the quotes off a run (`needs`), once for
the balances (`effect`).

C25 is **false**: proved that every swap offering a native coin fails, and that the message the router emits
for a native hop is rejected by every pair.

Router (C32, C34–C36): C32 over the stack machine with hostile contracts; C34 list characterisation; C35 for
messages and balances; C36 by induction over hops, for balances of whole transactions.

Stray money (C61, `Spec/Locked`, `Lemmas/{StillL,LockedL,RouterCoinsL}`, `Props/Locked`): an invariant of the dispatch
stack: pending messages of the contract move nothing it may not spend, and no contract of the project ever grants an
allowance (`StillL`). For the router a statement about traces. C62 (`Props/Sweep`) reuses the route induction of C60 for
requests that arrive without tokens.

Token ledger (C63, `Spec/Cw20`, `Props/Cw20`): the specification is a book of accounts given by functions (who may, what
changes, who is told); the token refines it at every call of every transaction. Whether cw20-base refuses to grant a
deadline that is already past depends on its version (the source of 1.0.0 is not at hand): `Api.refusesPast` says which, the book has the
same parameter, and every claim of this file is proved for both.

Administration (C64, `Spec/Desk`, `Lemmas/DeskL`, `Props/Desk`): the specification is a record of settings with rules and
effects; the factory refines it at every call. The invariant (owner bytes denote an address) holds in all reachable states.

Creation (C65, `Lemmas/CreateLiveL`, `Props/CreateIff`): all five messages of a CreatePair transaction are executed
symbolically; fresh addresses come from the chain invariant, code ids and decimals in range from the settings invariant.
"Not listed yet" is stated through the factory's own query. The settings assumed are that both code ids are the project's
code; third-party asset contracts are excluded because they may refuse to answer.

Queries (C66, `Spec/Quote`, `Props/Queries`): equivalences with a specification of quotes that does not mention the model.

Deposits (C67, `Spec/Deposit`, `Props/DepositIff`): the slippage check and the share rule are specified in closed form
(`Spec.Balanced`, `Spec.Worth`) and shown equivalent to the model's step-by-step versions; the exact deposit theorem (C26) gives
necessity, the liveness lemma of C57 sufficiency. C68 and C69 (`Props/Undo`) combine it with the exact withdrawal. C69 is false:
the holder of the last LP token can inflate its worth by a donation, and the tolerance looks at ratios only
(`C69_counterexample` is a history on the chain); the proved bounds are the extra term p/(T+s), and the fraction s/(s+1) (`C69_fraction_partial`).

Fees (C70, C71, `Props/Fees`): one arithmetic lemma (`payout_gain`) per swap, summed over the paths of C21. C71 is false because
the commission is rounded down (`C71_counterexample`); the proved bounds are the fee of the single
swap, whatever the number of portions, and the output `997aX/(1000o+997X)` of a swap with a fee on the input, plus a unit per portion.

Admins (C72, `Props/Admins`): one-step lemmas on code and admin, lifted by `occurs_or` and over all histories; what halo code
sends contains no change of an admin, and migrations come from a factory only.

Announcements (C73, `Log.lean`, `Spec/Report`, `Lemmas/LogL`, `Lemmas/SettleL`, `Props/Events`): `log` records what each
executed frame announces, next to `trace`. Step by step, the pair's request (`callOf`) and its event are compared with
`Reports` (an independent statement of what the event must contain); this needs that frames acting as a halo token carry no
coins (`Notices`). Together with C21 it gives the bookkeeping theorem. For payments, the frames of the response are run to their
end (`Comes.runs`). The factory part is an induction over logged histories.

Texts (C74, `Text.lean`, `Spec/Text`, `Lemmas/TextL`, `Props/Text`): `Event.attributes` prints an announcement as the contracts
do; the first byte that is not a digit ends a number, the first comma or dash ends a name. Ambiguities that remain are proved:
names beginning with a digit, new pairs whose first denomination contains a dash, and coin against token of the same name.
`Spec/Indexer` is a decoder written independently of the printer; `C74_indexer` (`Props/Indexer`) applies it to the recorded texts.

Splitting (C75, `Props/Split`): the LP tokens minted for portions are compared with the whole by an invariant over the portions
(`T_i * a ≤ (a + d0_i) * T`, likewise for the other asset and for the square root in an empty pair); for withdrawals the
truncation errors of the portions are added up. A gain of one unit by splitting a withdrawal is possible (example).

Cycles (C76, `Props/Cycle`): `compute_swap` fails when the gross output exceeds the output at the spot price (`spread_amount`
would be negative), so `r * o ≤ x * a` holds for every swap that succeeds, dust or not; induction over the route. For markets:
`p*a + q*b` is least on `a*b = const` where `p*a = q*b`.

The router as an agent (C77, `Props/Agent`): a route transaction changes the balances of every account in a way that depends only
on the reserves of the pairs (`route_everyone`: the pairs by `Shifted`, the receiver by the quote, the router and everyone else not
at all). The same is proved by induction for `ByHand`, the user making the swaps in separate transactions, so the two agree account by
account (`C77_same_as_by_hand`) and each is possible exactly if the other is (`C77_router_iff_by_hand`; by hand without belief price and
spread limit, as the router sets none). Monotonicity and the way back are inductions over the hops with the one-swap facts behind
C05 and C06 (`computeSwap_mono`, `computeSwap_back`). Routes that visit a pair twice are C123. (Hops
that offer native coins never succeed, C25.)

Deployment (C78, `Props/Deploy`): for each of the four codes an "exactly if" and an effect theorem about the whole instantiation
transaction. The conditions are `TokenInst.Deployable` (written with list sums and pairwise difference, not with the code's loops),
`AdminIs`, and for pairs `AssetInfo.Named`; the effects are `TokenInst.Opens` (the opening book of C63), `Factory.State.HasDesk` (the
settings of C64), `PairDeployed`, each with `Deploys`: the contract at the next address, its admin, the coins, and nothing else. A
pair deployed without a factory is not checked for different assets, existing assets or true decimals (example: one token paired with
itself). The pair case assumes the named token code is the halo token's.

When trading halts (C79, `Props/Halt`): the pool of C21 now states for every granted swap that it could be priced (`Priceable`), for
every first deposit that the product fits in 128 bits and for every withdrawal that both refunds are at least one unit. Frozen pools
follow by induction over its paths, the exact condition for a sellable asset by arithmetic (an offer as large as the reserve works
whenever any offer does, except if the other reserve is a single unit), and the transactions from C56 and C09's exact domain.
The examples freeze a pool of the demo by two gifts, show that a deposit does not help and a withdrawal does, and a swap that takes
the offer and pays nothing.

Requests cannot loop (C80, `Props/Steps`): `Spec/Steps` counts, from the text of a message alone, how many messages and replies it can
lead to. `RunsForeign` says that a frame hands control to code other than the four contracts. Every step that does not run foreign code
leaves frames whose counts add up to less than the count of the frame executed, so the trace of a transaction without foreign frames is no
longer than the count of its message (`C80_bounded`, for every gas, also for transactions that fail). `C80_closed`: if no code other than the
four contracts is uploaded and no contract is foreign, the hypothesis is met by every transaction (including migrations, which end the
transaction). `C80_gas`: such a step does not depend on the remaining gas, so more gas never changes the outcome. The examples show that
the counts are reached (route with two hops 11, new pair 5, withdrawal 5, deposit 4) and that foreign code can loop until the gas is used up.

Listings of a token (C81, `Listing`, `Props/Listing`): halo-token answers queries with cw20-base's `query`; `Verif/Listing.lean` models the three
listing queries (accounts, allowances by owner, allowances by spender) as walks over the stored entries in key order, from an exclusive lower
bound, at most 30 (10 by default). `Spec.Follow` is what a client does: ask, start the next request after the last item, stop at an empty page.
`C81_holders` says that for a token in any reachable state the result of `Follow` is a function of the state alone (not of the page size),
lists everyone with a balance, and that the balances the token then reports for the listed addresses add up to the total supply it reports (all
stored addresses are valid, so each balance query succeeds). `C81_granted`, `C81_received`: membership is exactly having an entry in the allowance
map. The contrast is C42: the factory's start bound `key ++ [1]` is not exclusive in this sense, so its listing can skip a pair.

Ranges (C82, `Spec/Wire`, `Props/Wire`): the model computes with `Nat` and checks overflow at each operation, so a missing check would show up
as a number too large for its Rust type. `Spec/Wire` lists, without using the model's `inRange`, every number in a message or in storage with the
width of its type. `C82_stored`, `C82_received`, `C82_sent` say that all of them fit, in every reachable state and history; the only inputs the host
guarantees to fit are decoded messages (`ExecMsg.inRange`, `InstMsg.inRange`) and decoded query answers (`chk128` and friends in `Chain`).
Expiration heights and times of allowances are included (`u64`).

The wire (C83, `Json`, `Codec`, `Spec/Codec`, `Props/Codec`): the chain model hands contracts typed messages, with one sum type for all four contracts.
C83 justifies that. `readExec k b` is what contract `k` reads from bytes `b` (a JSON parser at byte level, base64 payloads, strict structs, as `#[cw_serde]`
derives it); `classify b` is the one typed message the bytes stand for, whoever reads them. `C83_delivered`: calling a contract with bytes succeeds with the
same result as `callExecute` with `classify b`, in every state. `C83_roundtrip`, `C83_image`: a message is read back from the text `to_binary` writes if and only
if it is well-formed (numbers fit; mere bytes are no message), and only such messages exist on the wire. `C83_text` combines the two. `C83_sent`: what the
contracts send in reply to a message from the wire is again well-formed, so the correspondence carries along every history. `C83_shared`: the interfaces
overlap only in `receive`. `C83_direct`: the router's hop with native coins is text that no contract reads (cf. C25). Instantiate messages likewise.

Queries and bytes (C84, `QueryCodec`, `ByteChain`, `Spec/QueryCodec`, `Props/ByteChain`): the same for queries, and for whole transactions. `readQuery k b` is the
query contract `k` reads; `smart c foreign w n a b` is the host's smart query: bytes in, bytes out, the contract answering from its storage and asking others
by bytes (`byteQuerier` follows `querier.rs`), nested at most `n` deep. `C84_requests`: which queries can be read. `C84_token`, `C84_pair`, `C84_factory`,
`C84_router`: what a client reads back from the answer is what the contract computed, errors included; the numbers fit by C82. `C84_querier`: the contracts' own
questions. `ByteChain.lean` is the machine of `Chain.lean` once more with bytes in place of typed messages and queries, third-party code sending and answering
arbitrary bytes. `C84_tx`: a transaction of bytes succeeds exactly if the typed one does, with the same state. `C84_reachable`: hence every claim about
reachable states holds of the chain of bytes. The typed chain allows more (third-party messages and answers that no bytes stand for).

Limits and sandwiches (C10, C11, C85, `Props/Limits`): `C10_swap_tx` and `C11_swap_tx` are C10 and C11 for whole transactions, in amounts
received. `C85_average_price` (any history of swaps that are not dust), `C85_sandwich` (three transactions by two users) and
`C85_limit_protects` (what a belief price and a maximum spread are worth). The example is a sandwich that takes 1017 of 5000.

Liquidity providers (C86, `Props/Provider`): `C86_withdraw_later` combines C22 and C16; `C86_worth_at_entry_prices` follows by the inequality of
the means. Leaks are swaps that lower the product (C01); pairs with at most 10^18 units of each asset have none.

Administration (C87, `Lemmas/OwnedL`, `Props/Owned`): unlike C41 without any condition on the code ids. The invariant lists what the factory can
still have on the message stack; the example is the state of `C41_counterexample`.

Storage (C88, `Store.lean`, `StoreChain.lean`, `Spec/Store`, `Lemmas/Store*`, `Props/Store`): the contracts once more, over a list of keys and values
in the order of the keys. `cw-storage-plus` and `cw2` are external; their keys are modelled as documented. `Spec/Store` writes out every key and text
without using the model's codecs. `C88_bisimulation` relates the two machines step by step (outcomes, errors, answers to queries);
`C88_reachable` and `C88_complete` are its consequences for reachable states; `C88_mirror` is about the two maps of allowances. Two conditions are
visible in the statements: a part of a key longer than 65535 bytes makes `encode_length` panic (`OddAddress`, which also
covers a host that gives a contract an empty or such an address), and listing queries assume that no
address ends in the byte 255, which no UTF-8 text does (`namespace_upper_bound`). The examples are literal dumps of the storage.

Grammar and shapes (C89, `Spec/JsonText`, `Spec/Shape`, `Lemmas/JsonTextL`, `Lemmas/ShapeL`, `Lemmas/ShapeMsgL`, `Props/Grammar`): the grammar is
an inductive relation between bytes and JSON values, with its own UTF-8 encoding (Lean's), its own table of escapes and
hexadecimal digits; the shapes are relations between JSON values and messages, field by field, with their own definitions of counts, fractions
(`Nat.ofDigits`) and base64 (24-bit groups). Only the types `Json`, `ExecMsg`, `InstMsg`, `QueryMsg` are shared with the readers. Every theorem is an
equivalence, so a reader that accepts too much fails as well as one that accepts too little. `C89_answer` covers what third-party contracts
answer. Two mutants of the readers had survived before (exchanged fields of `AssertMinimumReceive`, arrays of more than two).

Monotone quotes (C90, `Props/Monotone`): `quoteOf` is `floor(o*g/(a-g))`, which is monotone in `o` and `g` and antitone in `a`; the quotes of
routes compose these. `Hops` and `Against` speak of the factory's entries and of holdings only. That `Simulation` is monotone is C05 and C58;
that it *answers* for a smaller offer does not follow (the spread subtraction can panic, C09).

Equal treatment (C91, `Props/Equal`): relates two transactions in two reachable states of one chain. `SamePool` compares only the two reserves
and the LP supply; users, blocks, receivers, adversaries, gas and all other balances may differ. Derived from the exact conditions of C55,
C56 and C67 and the exact effects (`swap_tx`, `withdraw_tx`, `deposit_tx`); a mutant that looks at the sender, the block or another
balance breaks those first. A swap whose receiver is the pair itself is outside `C91_swap_payout` (it pays nobody).

Replies (C92, `Reply.lean`, `Spec/Reply`, `Lemmas/ReplyL`, `Props/Reply`): cw-utils is external; its reader is modelled as published
(version 1.0.1). `Spec/Reply` describes the bytes by a relation of its own. `C92_exact` is an equivalence; `C92_host` connects it to the
host; the machine of C88 runs on these bytes, the new contract choosing the data (`RawAdv.data`, less than 4 GB).

UTF-8 (C93, `Utf8.lean`, `Spec/Utf8`, `Lemmas/Utf8L`, `Props/Utf8`): `utf8Valid` follows the table of `core::str::from_utf8` (external);
`Spec.Utf8` uses Lean's own encoding of characters. `C93_strings` rests on the fact that whole characters can be cut out of UTF-8 anywhere.
Nested payloads (base64) are texts of their own, read by whoever receives them.

Leaks (C94, `Props/Leak`): bounds over whole histories what the swaps that favour the trader can cost; `left` is what such a swap leaves
of the asset it pays out. The proof is an induction over the `Path` of C21 with a factor `M / (M + 1)` per leak, `M = R * 10^18`, and
Bernoulli's inequality at the end.

Tokens over time (C95, `Spec/Replay`, `Props/Replay`): C63 lifted to histories: `tokenCalls` picks the calls of a token from the executed
frames, `Book.replay` folds the specification of C63 over them; the sums over calls are defined on messages alone.

Starting a pair (C96, `Props/Gate`): C18 lifted to histories. `Starts` recognises a deposit by a whitelisted sender that names both
minimums; `C96_gate` shows that without such a frame anywhere in a history the LP supply stays zero (invariant `Shut`: no frame in which the
pair mints is waiting, the pair is the only minter, the supply is zero). `C96_nobody` is the empty whitelist. `C96_taken` says that no frame of
any later history successfully creates a pair of the same assets; it uses the invariant of C38 (`KeepI`) at every frame, not only between
transactions. Together they describe squatting: anyone may create a pair (C65), and with an empty whitelist the two assets can never have a
usable pool at this factory, short of a migration by the factory's owner. The demo world contains such a pair.

Prices over time (C97, `Props/Price`): consequences of C94 in terms of what the pair's price does. Lowering `reserve1/reserve0` by `n/m` needs
`n * reserve0^2 ≤ m * reserve0'^2` (a reserve grows only by what somebody pays in, C21), for swap-only histories; per LP token otherwise.
`C97_provider` is the bound on impermanent loss for arbitrary final prices (arithmetic-geometric mean).

Disk over histories (C98, `Props/Disk`): C88 relates single states; `C98_history` relates histories, by running `Bisimulation.tx` along
`DiskLater` and turning each transaction of bytes into the typed one with `C84_tx`; it yields the typed trace as well. `C98_supply` sums what a
reader of the raw store sees: every entry whose key starts with the bytes of the `balance` map, its digits read as a number (`amounts`), against
the `total_supply` in the text under `token_info`. `C98_pair` and `C98_registry` are C27 and C38 as statements about stores.

Bundles and caught errors (C99, `Catch.lean`, `Props/Catch`): a second machine, `runC`, runs several messages per transaction and lets third-party
contracts catch errors: the message and everything it causes runs in a nested call of the machine whose failure is discarded. The proof replaces, in
the run of the simple machine, each caught message that failed by what its sender does on being told, and each that succeeded by itself without
catching (`CatchL.sim`); the oracle of the simple machine is put together from the pieces (`Runs.run`). The converse is the machine that never catches.
`CatchLog.lean` adds to `runC` the record of what was executed and announced (`C99_machine`: otherwise the same machine); `C99_logged`: the recorded histories
are exactly those of `Logged`, and with the announcements left out those of `Hist`, which all claims about histories speak of.

A factory's books (C100, `Spec/Books`, `Props/Books`): `Spec.books` keeps owner, code ids, decimals and list of pairs of a factory from the
executed messages alone, without any function of the factory. `C100_books` proves that the storage is always the same. The invariant also has to say
that while a pair is being created nothing else changes what was asked for, since `reply` reads the scratch item. `C100_origin`, `C100_registered`
and `C100_owner` follow each entry back to its call. `C45_history` is C45 over whole histories: registration first, pair creation later, no
registration of the same coin in between.

Code no contract uses (C101, `Wide.lean`, `Props/Wide`): JSON of `Decimal256` and `Uint256`, `Asset::to_raw` and `AssetRaw::to_normal`. Texts are
specified by the JSON grammar (`Spec/JsonText`, C89) and `Spec.DecimalText`. Of the two packages only `query_all_balances` (`querier.rs:25-30`, not
called anywhere), the mock querier and the schema generators are left out.

Announcements and pool (C102, `Spec/Close`, `Lemmas/CloseL`, `Props/Close`): C83 and C87 bound the pool by the announcements, C102 closes the gap to an
equation. `Spec.gave`, `took`, `created`, `destroyed` read an announcement; `Entry.gift` and `Entry.forgone` read the calls of the token contracts found
in the trace (C95). The proof follows a potential along the machine's stack: what announced payments are still under way. Native coins: the chain may
credit coins between transactions, so `C102_coins` is per transaction, with `coinGift` read off the trace (coins in a bank message or attached to
any call of the pair other than a deposit; a swap that offers a coin is never accepted, C25). Excluded: the code of the pair or of
the token spoken of was replaced. The other asset is not assumed to be genuine (`PairSite.Known`, in place of `Sound`); only `C102_tally` needs both.

Hostile assets (C103, `Props/Hostile`): most pool claims suppose that both assets are genuine (`PairSite.Sound`), as a hostile asset can take nearly
everything by one swap with a false balance. C103 says what is left for the genuine asset: per call, the price formula's ceiling, the exact share on
withdrawal and no dilution by deposits; and that a contract that refuses calls locks the pair. The demo world `filledAX` has such a pair; its examples
execute the drain (1000 → 3) and a re-entrant withdrawal during a deposit (the LP tokens are created after the deposit is collected,
`contract.rs:247-330`), so no claim that a deposit is worth what was paid holds for such pairs.

Inflated LP tokens (C104, `Props/Inflate`): the attack behind `C69_counterexample`, with its economics. All of it follows from the exact
deposit (C67) and withdrawal (C16) transactions by arithmetic; the gift is described by its effect (`Gave`), the demo worlds are reached by
transfers. `C104_attacker` is the accounting identity of the attack as an inequality (the withdrawal is rounded down), so that nothing
the attacker gains comes from anywhere but the victim's loss. That the victim can lose nearly half is executed. The same arithmetic gives
`C69_fraction_partial`: with tolerance t, the fraction (1-t)*s/(s+1) of both assets comes back.

What a factory lists (C105, `Props/Listed`): the bridge from what a user can see to `PairSite.Sound`, the hypothesis of the pool
claims. The new part is that the LP token is neither asset. The creation invariant (`Lemmas/CreateL`: `Stage`, `Fresh.ex`) carries
that a token asset of the pending creation is a contract that already exists, because it answered the query for its decimals; the LP
token is instantiated later, at an address that was free. `C41_entry_describes_pair_partial` states it too. `C105_sound_iff` is an equivalence, so no
further check is hidden. `C105_unlisted` executes the deployment, without the factory, of a pair with its own LP token as an asset.

Token announcements (C106, `TokenLog`, `Spec/TokenIndexer`, `Props/TokenIndexer`): the counterpart of C100 for the tokens. The reader (`Known20.read`)
knows nothing of token messages: it debits `from`, credits `to`, lowers the allowance of `from` for `by`, raises or lowers that of `owner` for
`spender`, and parses amounts (`number`, C74). `C106_indexer` says that this follows balances, supply and allowances exactly, except for
allowances' expiration, which cw20-base does not announce. `C106_minter` needs that "None" is no address; the examples show that it is ambiguous otherwise.
`C106_asker` says the announcements cannot be made in another's name. `C106_lp_agrees` compares two independent announcers, pair and LP token, and
follows from C95 and C102.

The clock (C107, `Props/Clock`): two executions of the same transaction at different heights and times are compared, step by step (`step_at`,
`run_at`). `expirationsAt` lists what a token compares with the clock, read off the state and the message; `C107_clock` says that nothing else
matters, errors included. `C107_trade` and `C107_undated` are the two cases that need no knowledge of the execution; their hypotheses are about
what is signed and what third-party contracts send (`step_from`: what the project's own contracts send). There is no deadline in any message, so a
signed trade can be executed at any later time; its only protection is the spread limit (C10, C11).

**Published schemas (C108).** `Spec/Schema.lean` says what the three files in `packages/haloswap/schema` demand of a JSON value (draft 7:
`type`, `required`, `properties`, `additionalProperties`, `items`, `minItems`, `maxItems`, `anyOf`, references resolved by hand), and nothing
about the code. `Props/Schema.lean` compares this with the readers of `Codec.lean`/`QueryCodec.lean` (exactly, for `AssetInfo` and `Asset`)
and with the bytes the contracts answer. Findings: `pair_info.json` is older than the code (no `asset_decimals`, no `requirements`); all three
allow further members where `#[cw_serde]` refuses them. A repeated member must conform at each of its occurrences (the standard leaves
this open).

**The order of deals (C109).** `Props/Commute.lean`. `Deal` lists what a user can do at a pair (the pair accepts no native swaps, C25).
`C109_same_change` compares one deal in two states that look alike to the pair, for every asset and account; `C109_order` follows from it and from
deals at one pair not being noticed at another. That the other order goes through is proved for swaps only (`C109_swaps_commute`); a deposit also needs
allowances and coins, which a deal elsewhere may have used up. Payouts to the other pair are excluded: they are gifts to its reserves.

**Whom a liquidity provider has to trust (C110).** `Props/Power.lean`. `C110_owner_takes` is a theorem about every reachable state, not an example: it
exhibits the two transactions. The foreign code is the adversary's `act` of the second transaction; that the code exists on the chain
(`c.codes code = some .other`) is a hypothesis, since anyone may store code. `C110_nobody_else` and `C110_whom_to_trust` range over `Abstain` histories:
blocks, changes of bank balances by the chain and transactions of anybody but a set of accounts. The set has to contain the owner, and the admins of the
factory and of the asset tokens where there are any; an admin that is a contract is excluded by `IsUser` (it would make the statement depend on who can
make that contract act).

**Pools without owners (C111).** `Props/Restart.lean`. `C111_orphan` is one way into the state, `C111_restart_collects` what it is worth: the first
deposit mints `sqrt (d0 * d1)` LP tokens whatever the pair already holds, and these are then all there are. That nobody who is not on the whitelist can start
the pair is C96; what swaps can do to the pool meanwhile is C54 and C94.

**Foreign code (C112).** `Props/Say.lean`. The model has an arbitrary oracle for foreign contracts (`Adv`), asked anew at every step. `mute` is the oracle
that refuses everything; `Adv.only` refuses for all contracts outside a set. The proofs show that every entry point is monotone in what queries answer: no halo
contract turns a failed query into a success (`decimalsOr` turns it into another error). `C112_swap` and its companions use that
whether a deal goes through does not depend on the oracle (C55, C56, C60, C65, C67), and add that its outcome does not either.

**Just-in-time liquidity (C113).** `Props/Jit.lean`. `C113_share_of_trade` follows deposit, swap and withdrawal through the accounts of the provider:
the share minted is at most what either deposit allows (`share_le`), the refund at most pro rata (C16), so that the gain is at most the share of
what was paid. It needs no exclusion of leaks. `C113_average_price` and `C113_any_attack` combine the share value of C22 over histories (before, the swap,
after), with the supply of LP tokens the same at the end; they generalise C85 from swaps to any use of the pair. `C113_deposit_helps` compares the
swap before and after the deposit (C04).

**All pairs work alike (C114).** `Props/Twin.lean`. `Twins` matches the assets of two pairs in either order; the theorems follow from the exact conditions
C55, C56, C66 and C67 and the exact effects of each transaction, which after rewriting are the same on both sides; a pair whose assets are in the other order needs
that the conditions for a deposit are symmetric. There is no swap of a native coin (C25). The two pairs may be one pair, in one order or in both.

Stray LP tokens (C115, `Props/Lost.lean`, `Lemmas/LostL.lean`): for the LP tokens a pair holds of itself, the invariant `Lost` counts the
burns and withdrawal notices still pending in the middle of a transaction (`owed`), so that what lies in the pair beside them never falls;
this needs that a pair grants no allowances (`Mute`) and gives away only its assets. `C115_never_first` is over the trace: no `First` call
occurs. `C115_permanent_liquidity` then is C52 (or C22) without the hypothesis on first deposits. Assets may be hostile in
`C115_lp_in_pair_is_lost` and `C115_supply_stays`.

Approvals (C116, `Props/Approve.lean`, `Lemmas/ApproveL.lean`): `cost` reads off a signed message what it gives away of a token:
transfers, sends and burns at the token itself, and for a deposit the amount named for each side of the pair that is that token (twice
in a pair of an asset with itself, where the code pulls the first named amount for both sides). `C116_project_may_be_trusted` sums it
over the trace. The invariant adds what pending `transferFrom` messages of pairs are going to take (`asked`): such a message arises
only from a deposit, with the depositor as owner, and routers, factories and tokens never send one (`ApproveL.Quiet`). Approved spenders
(`House`) are any contracts running the project's code, whoever created them. In
`C116_message_names_the_price` the sum shrinks to the signed message, since afterwards only contracts act. Coins are per transaction:
between transactions the environment may change users' coin balances.

Doing nothing (C117, `Props/Sleep.lean`): C116 at every moment of a history (`ApproveL.Gave.hist_all`) keeps the LP tokens of an account
that signs nothing, so the LP supply is never zero and the value of a share never falls (C22 without first deposits); at prices at which
the reserves balance, the value of a pool is least for its product (`value_least`). `worthOf` adds up tokens and shares of pools, as a
rational number. Coins outside the pools are left out: the environment may change users' coin balances between transactions.

The fee band (C118, `Props/Band.lean`): what a swap pays is bounded above and below by the exact curve (`gross_key`, `floor_le_gross`), so
whether it gains at outside prices `P`, `Q` depends only on whether the marginal rate less the fee, `0.997 a / o`, exceeds `P / Q`. Inside
that band the gain is below one unit (rounding of the commission); outside it, `C118_outside` names a swap that gains, provided the pool is
deep enough for the distance from the edge (in a pool of a few units rounding eats any gain, so some such condition is needed;
`D² ≥ 4000 P (997 Q o + 1000 P)` is what this swap size needs, it is not claimed to be the weakest). The statement over histories is C22
(product per squared supply does not fall) with the inequality of the two means, which loses `3988009 / 3988000 = 1997² / (4 * 997 * 1000)`
when the reserves are worth `997 : 1000` instead of the same. C113/C117 are the case of balanced reserves.

What other code sees (C119, `Props/Moment.lean`, `Lemmas/MomentL.lean`): `codeOf` is the contract whose code a frame of the stack machine
runs. `Good.moments` is the refinement of `Good.run` (C21) at every position of the trace at which the code of somebody other than the pair,
its LP token and its assets runs: by induction on the fuel, the frames that a pair's operation leaves on the stack (`Inner`: transfers,
`transfer_from`, mint, burn, bank messages) run no such code, so every such position lies between whole operations. The state is that in
which the message is delivered, before coins sent along are moved. The lemma does not need the run to succeed
(`Inner.done`: if other code runs later, the frames of the operation have all been executed), hence `C119_attempt` for failing transactions,
which by C99 stand for the caught failures too. `C119_whole` gives the path of whole operations, `C119_value` and
`C119_backed` what follows for the product per squared LP token. The examples have a foreign contract that swaps, withdraws and calls itself
in one transaction, and show that just before the burn of that withdrawal the inequality fails, so the exception for the pair's own LP token
is needed.

Leaving early or late (C120, `Props/Exit.lean`): without swaps, every request and all drift keep each reserve per LP token from falling
(`kept_path`, an induction on the path of C21; a pool without LP tokens is excepted by excluding first deposits). `C120_no_rush` compares the
payouts of the same withdrawal before and after such a history, `C120_no_waiting` bounds what waiting for another withdrawal gains (the
rounding of that withdrawal), `C120_still_open` is the liveness of C55 carried over the history. `C120_all_leave` is solvency:
by induction on the list of users who have all LP tokens, they can all leave (`leaveAll`), each with their share, and the last one takes what is
left.

Contracts as customers (C121, `Props/Serve.lean`): the theorems C07, C16, C55, C56 and C67 about transactions of users rest on statements
about runs of one message in a state in which the pair is sound (`Good.quote_paid`, `Good.withdrawn`, `Good.deposited`, `Good.swap_iff`,
`Good.withdraw_iff`, `Good.deposit_iff`), whoever sends it. The refinement of C119 supplies such a state at every moment at which somebody else
acts (`Acts`), and `Sane` says that whoever acts acts under an address in normal form.

Routes of contracts (C122, `Props/ServeRoute.lean`): C60 likewise rests on statements about runs (`RouteAt.iff`, `RouteAt.done` in
`Props/Route.lean`), whose hypotheses hold at every moment at which somebody acts who is neither the router nor a contract of the route's pairs.
That the router holds nothing of the assets to be sold is a hypothesis as in C60: anybody can send it tokens.

Routes that visit a pair again (C123, `Lemmas/WalkL`, `Props/Again`): C36, C60, C77 and C122 are about routes over different pairs. `Walk`
follows the amounts of any connected route, with every hop priced at what the pairs hold after the hops before it; `OnWalk` is `OnRoute`
without the condition that the pairs differ. A route transaction goes through exactly if its swaps do by hand
(`C123_iff_by_hand`), with the same balances for everyone (`C123_same_as_by_hand`, here with any receiver), so the statement of C77 needs no
condition on the pairs. What does need it is C36: the router's simulation takes every pair as it is before the route. Quotes of such
routes can be too high (`C123_quote_too_high`) or too low (`C123_quote_too_low`); if every pair visited again is traded in the same direction
they are never too low (`C123_quote_is_a_ceiling`). The minimum is checked against what is really paid.

The router, exactly (C124, `Spec/Route`, `Lemmas/TravelL`, `Props/Exactly`): `Spec/Route` describes, without reference to the model, a router
over constant-product pools that always trades everything it has: `Purses` (who holds what), `Stop` (pool, assets, decimals), `Travels`. The
equivalences `C124_iff` (with tokens) and `C124_direct_iff` (without) and the effects `C124_effect`, `C124_direct_effect` drop every restriction
on the route, the router's stock and the receiver that C60, C62, C77, C122 and C123 make; what remains assumed is that every swap named has
a sound pair (deployed by the factory, assets that behave). `C124_nothing_left` is proved from the specification; `C124_left_behind` shows a route the router accepts
that leaves the sender's proceeds with the router, and the next caller taking them. The pairs are followed from hop to hop by `hops_all` and
`hops_go`, one hop by `hop_all` and `hop_go`.

Nobody profits (C125, `Props/ZeroSum`): the value of what a group owns is bounded from above, over any history, with arbitrary contracts acting for the group. C117 bounds
from below what a sleeper owns; here the balances of all holders add up to the supply (`SumsTo`, from `TokensOk`), so what the group gains in tokens the pairs lose, and what the
pairs lose is taken from pool shares: `share_step` is the arithmetic for one pool (shares of the others are worth no less, from `C22_no_leak_partial` at balanced prices, and there are no
fewer of them). Hypotheses are: supplies of the priced tokens do not grow (a minter could create value), pairs hold at the start only their own two assets and no LP tokens of
the listed pairs (anybody can take what is given to a pair, so gifts would be profit), an empty pool holds nothing, nobody else is awake. The demonstration is a night in which
`user` trades in a circle over three pairs, deposits and withdraws and ends poorer by what the sleeping `user2` has gained.
`C125_any_assets` is the general form (coins and tokens, assumptions about coins at both ends), `C125_no_profit` the one for tokens over any history, `C125_coins` the one with coins over
histories of transactions and blocks only (`Closed`: the `env` steps of `Hist`, which stand for fees and issuance by the chain, are left out), where the assumptions about coins are proved
(`C51_native_supply_conserved`, `ZeroL.keeps`).

Arbitrage (C126, `Props/ZeroSum`): C125 is the case `L = V` of `C126_arbitrage`, which holds at any prices: a pool with reserves `x`, `y` of which the product per squared share does not fall
is worth at least `2 √(P x · Q y)` per what it had (`least_worth`, the inequality of the two means); the statement takes any rational `L` with `L² ≤ 4 · P x · Q y` so that no roots are needed. In the
demonstration the bound is 242.7 and a single swap makes 240.1, so there is little room for a better one. `C126_with_leaks` and `C126_sleeper_with_leaks` allow leaking swaps: there `L` must be smaller
by what C94 says they can cost; `C126_arbitrage` and `C126_sleeper` are the cases without leaks.

The best trade (C127, `Props/Best`): the gain of an offer that brings the offer reserve to `n` is, but for rounding, `Px + 0.997 Qy - (P n + 0.997 Q xy / n)`; the
mean inequality bounds the bracket from below (`most`), and at the integer `n` next above the square root it is off by at most `P / n` (`least`, from
`(n² + a - 1)² - 4n²a = (a - (n-1)²)(a - (n+1)²)`). The roots are given as any integers below and above them, so the statements contain none. C127 is about one swap: as
the fee stays in the pair, three swaps can gain more than any one (last example). What any number of swaps can gain is bounded by C126 and C129, and of one asset by C128.

Splitting (C128, `Props/Slice`): `y' ≥ y (0.003 + 0.997 x/x') - 1` for every swap, the mean inequality for three ones and 997 times `x/x'` (`mean`, by Bernoulli's)
turns it into `y' + 1 ≥ y (x/x')^0.997`, and the units add up because `x/x' ≤ 1`. Stated with integer powers. It holds for leaking swaps too. This is sharper than the
bound in C71 (`C71_split_total_partial`), and the best of its kind: many small swaps approach it.

Arbitrage with the fee (C129, `Props/Weigh`): C126 uses only that `x y` per squared share does not fall, which is what remains of a swap if the fee is forgotten. With it
`y^1000 x^997` (and `x^1000 y^997`) per `share^1997` does not fall either: a swap of `x` leaves it as it is, but for rounding (C128's `mean`), a swap of `y` raises it, deposits and withdrawals are proportional
(`FallBy`, `path_fall`; the exchanged form through `mirror`). `worth` then minimises `P x + Q y` by the weighted mean inequality (`weighted`, in integers). The bounds are lifted to groups and sleepers over many
pairs through `ZeroL.group` and `ZeroL.sleeper`, which prove C126 too: every pair may use either form. In the demonstration of C126 the pair is left with 56604; C126 gives 56568 and C129 56589.
Rounding costs `n / R`, so for very many small swaps C126 is better. The weights are those of the fee of 0.3%: with a smaller fee the statement is false.

Fees against loss (C130, `Props/Earn`): C70 counts the fees while there are only swaps; C130 does so over whole histories, per share, as a product of factors (`growth`). The factor of a swap is C70's `callGain`
over the product of the reserves it met, that of everything else is one, and a dust swap that is no leak adds nothing (`swap_gain`). With the inequality of the means this says when fees outweigh the loss that C97 bounds.
In the demonstration one swap of a tenth of the reserve makes up for prices one percent off.

Order (C131, `Props/Queue`): C109 says that the order of deals at different pairs does not matter and that at one pair it does; C131 says how much. `InTurn` is any list of swaps of one asset by any users, each in its own
transaction. A swap multiplies the other reserve by `(o + 0.003 x)/(o + x)` up to one unit (`leaves`, `leaves_le`); the products of these factors for different orders and portions lie between `o/(o+X)` and
`(o + 0.003 X)/(o + X)` (`C131_between`), and for two swaps their difference is computed exactly (`swapped`). So by ordering transactions one decides who gets the better price (`C131_waiting` bounds it), but not what the pair keeps.

Pairs with coins (C132, `Props/Coins`): C25 found that pairs accept no native coin for a swap (the `Swap` request that took them is commented out in `execute`; only the cw20 hook is left). C132 says what this
means for providers over whole histories: every request a pair with a coin serves is a sale of the token, a deposit or a withdrawal, each of which keeps or raises the token reserve per LP token, so traders can only take the coin out
(`C132_token_share`), and a pair of two coins is a mere vault (`C132_two_coins`). This is false of pairs of two tokens, where only the product per share squared is kept (C94).

Several pairs (C133, `Props/Merge`): every factory has at most one pair of two assets (C40, C42), but anybody may deploy factories, so liquidity may be spread over pairs. `Across` is a list of swaps of one token at different pairs, each in
its own transaction, by any users; the frame lemma of C109 (`CommuteL.swap_all`) shows that each pair pays what it would pay alone. What a pool pays is, up to one unit, `0.997 * price * depth o x` with `depth o x = o x / (o + x)`, which is
superadditive (`depth_add`: the difference is a square), hence `C133_at_most` for any number of pairs; `C133_no_better` and `C133_as_good` compare with a transaction at a single pair, which may be in another world of another chain.

Routes as pools (C134, `Props/Lens`): one hop is `x -> 0.997 a x / (o + x)` up to one unit (`MergeL.above`), a fractional linear map; a route composes them, so it is one too. `asks`, `bids` and `bend` are its coefficients in closed form (products
and a sum over the hops, defined on the list of reserves `met` at the start, not by running the route); `grain` is the error, which later hops multiply by their price at the margin (`smooth`). `C134_route` is about the transaction (C36, C60 give the
amounts along the route; `OnRoute` wants distinct pairs, see C123 for others). `C134_direct` compares it with a swap at a pair of the two end assets from the same state.

Reverse quotes of routes (C135, `Props/Shortfall`): C59 found that they may be too low and C08 that one unit more suffices at a single pair. C135 carries this through a route: each hop's quote is one unit (and the 18-digit truncation of 1/0.997) short,
which costs the hop's marginal price, and later hops multiply what is missing by at most their marginal prices (`LensL.smooth`). `short` is the resulting bound in closed form on the reserves at the start.

Sandwiched deposits (C136, `Props/Refuge`): a depositor's protection from end to end. The world before the deposit is any reachable one, so whatever
an attacker did to the pool first is covered; the history after it is any one without `First` and `Leak` calls (C86, C94 say why).
`C136_tolerance_holds` combines the slippage check (C13), the exact number of LP tokens (C67) and the growth of the value behind
an LP token (C86): the product of what comes back is at least `1-t` times that of what was paid in, up to rounding. `C136_worth`
is the same in money, by the inequality of the means. `C136_without_tolerance` is a sandwich in which a depositor without a
tolerance loses two thirds. `C136_with_leaks` allows leaking swaps and counts them (C94). `C136_first`: a first deposit brings back the whole product, with or without a tolerance.

Saving (C137, `Props/Savings`): C136 for any number of deposits and one withdrawal. `Saving` is an inductive relation between a first
world, a last one, the LP tokens bought and what was counted of the deposits: of each, any `y` with `y^2` at most `(1-t)*d0*d1` after
rounding (`coarse`), so that no square roots are needed. The invariant `g^2 * T^2 ≤ x^2 * r0 * r1` survives histories (C22 without
leaks) and other deposits (C15), and the roots add up (`SavingsL.joined`).

Attacks on deposits (C138, `Props/Sandwich`): the counterpart of C113 for deposits. What the others gain is what leaves the pair on
balance and does not go to the depositor, so it does not matter who they are or how they share it. The worth of an LP token does not
fall in any of the four stages (C22, C15, C22, C16), so with as many LP tokens at the end as at the beginning the pool is worth no less at
its first prices, and what the others gained must come from the depositor; C136 bounds what they can lose.

Attacks on withdrawals (C139, `Props/Farewell`): the same for a withdrawal, which has no tolerance at all. Here the loss of who withdraws is
rounding (C86), and with it what all others can gain.

Attacks on swaps (C140, `Props/Shield`): C113 again, without the condition that the others pay in nothing of the asset bought: gains are
measured at the prices of the pool before the attack, and C11 says what the belief price and the maximum spread leave to lose. The swap
itself must not leak (`n2`, as in C113).

Factory registry (C39, C40, C42–C45): byte-level model of `pair_key`, ranges and pages.
  * C40 is **false** in general (concatenated keys collide); proved when no asset's bytes begin with another's. Exact (`C40_exact_partial`): two pairs share
    an entry iff in ascending order their bytes agree or a part `t` moves, `l' = l ++ t` and `h = t ++ h'`.
  * C42 is **false** in general (the range start appends byte 1); proved when no key k' satisfies
    k < k' ≤ k ++ [1], in particular for keys of equal length. `Props/Paging` settles the rest: paging always ends and lists
    registered pairs only, in key order and none twice (`C42_sublist_partial`); for a given limit it lists all of them exactly if no
    key after a full page lies just above the page's last key (`C42_exact_partial`); for every limit, exactly if no key lies just
    above another (`C42_every_limit_partial`).
  * C44 is **false** for address codecs with several spellings (upper-case bech32); proved for normal-form
    addresses and for injective codecs.

bignumber (C46–C50): byte-level printing/parsing and exact-or-panic arithmetic. The parser accepts `""` and
`".5"` although the doc comment disallows an empty whole part (`C50_empty_parts_accepted`).

No property was judged inexpressible.

## 3. Trusted base

* The Lean 4.33.0 kernel. Every theorem depends on at most `propext`, `Classical.choice`, `Quot.sound`
  (`#print axioms`; the exact set per theorem is in `AXIOMS.md`). No `sorry`, no own axioms, no
  `native_decide`/`bv_decide`.
* The reading of the Rust code: each definition cites file and lines.
* Behaviour of dependencies not in `/repo`, modelled from their published semantics:
  `bigint` 4.4.3 U256 operators (exact or panic), `cosmwasm_std` `Uint128`/`Decimal` (1.1.8),
  `cw20-base` 1.0.0, `cw-storage-plus` maps (ordered byte keys), `integer-sqrt`, wasmd/x-bank dispatch.

Evidence that the reading is right (tests, not proofs): `Verif/Conform/Units.lean` and `Verif/Conform/Integration.lean`
transcribe the project's own unit tests (pair, factory, router, token, haloswap, bignumber) and its integration tests
(`cw-tests`), and the kernel evaluates the model on them. Every assertion about amounts, messages, attributes and errors in
those tests holds of the model; a change of the model that contradicts one of them no longer builds.
`Verif/Conform/Texts.lean` fixes the JSON text of one value of every message, query and answer, and evaluates the texts in the `README.md` files
(some of which the contracts refuse: the `cap` query of the token, `reverseSimulation`, amounts written as numbers).

## 4. Modelled / not modelled

Modelled, with every error and panic path that can be reached:

* halo-pair: `instantiate`, `execute` (`Receive`, `ProvideLiquidity`), `reply`, all four queries, `migrate`,
  `compute_swap`, `compute_offer_amount`, `assert_max_spread`, `assert_slippage_tolerance`.
* halo-factory: `instantiate`, the four `execute` messages, `reply`, all four queries, `migrate`, `state.rs`.
* halo-router: `instantiate`, all `execute` messages, all queries, `assert_operations`, `operations.rs`.
* halo-token: `instantiate` with validation; cw20-base transfer, send, burn, mint, allowances (all four
  `*_from`/allowance messages), minter update, all queries (marketing info: always empty; no logo).
* haloswap: `asset.rs`, `querier.rs`, message types; bignumber: all of `math.rs` except serde glue.
* Host: atomic transactions, message order, reply on success, funds transfer, instantiation addresses,
  migration and change of admin by the admin, address resolution with possibly several spellings, arbitrary foreign contracts.

Simplified (an over-approximation unless stated):

* Messages in the chain model are typed values; range checks that decoding performs are explicit (`inRange`,
  `chk128`, …); a message of the wrong contract is a decoding error. C83 relates this to the JSON texts. The JSON layer
  (`Json.lean`, `Codec.lean`) follows the documented behaviour of serde, serde-json-wasm and `Binary`, which are not in the
  repository: natural numbers only, strings not checked to be UTF-8 (C93: the reader that checks them differs only in
  refusing texts that are not UTF-8). C84 does the same for queries, and for whole transactions
  (`ByteChain.lean`); the answers of the bank module and migrate messages (`{}`) stay typed values.
* Migration of a halo contract to another code: it becomes an arbitrary foreign contract for good.
* Submessage errors caught by a foreign contract: not in the main machine, but in `Catch.lean`; C99 proves that it makes no difference.
* Primitive integer arithmetic (`u128 * u128` in the first deposit, `contract.rs:297`; `10u64.pow` of the difference of decimals, `:705`, `:719`) panics on overflow: the release profile sets
  `overflow-checks = true` (`Cargo.toml:15`, and each contract's). `Uint128` and `Uint256` operators panic by themselves.
* Gas is an arbitrary bound on the number of dispatched messages.
* Outside changes of native balances (fees, staking, IBC) are arbitrary but never take coins from a contract.
* Reply data: `parse_reply_instantiate_data` yields the created address, or fails for other replies. `Reply.lean` has its protobuf
  reader and the host's writer, used by the machine of C88; C92 proves that they fit.
* Attributes: those of the pair and the factory are kept (typed `Event`, recorded by `Log.lean`); the ones `cw20-base` adds are kept as texts, a function of
  caller and message (`TokenLog.lean`, from the library's source as known, since it is not in the repository).
* cw20-base: `ALLOWANCES_SPENDER` (a mirror used only by a listing query, written together with `ALLOWANCES`) is not stored separately: the listing
  by spender reads `ALLOWANCES`. `Store.lean` has both maps; C88 proves that the simplification is exact.
* Typed storage, without the `cw2` versions, which are in `Store.lean` only. C88 relates this to the bytes under the keys of `cw-storage-plus`.
* Refusals of the chain that are not modelled (transfers of a coin disabled, blocked recipients, restricted instantiation of code, gas prices): the main
  machine has none, `Catch.lean` has arbitrary ones, and C99 proves that they add no behaviour. Claims that something succeeds suppose that there are none.
* One message per transaction; `Catch.lean` has several, and C99 proves that it makes no difference.
* Bank messages other than `Send` (`Burn`, minting by other modules) sent by a foreign contract in the middle of a transaction: the same
  as sending the coins to an account nobody else looks at, or having received them beforehand (an outside change) and releasing them then.

Not modelled: what `cw20-base` does with marketing data and logos if there is a marketing account (no halo token has one: C88 proves
that the entry is never there, so the messages are refused),
`BankMsg::Burn`, governance, IBC and staking messages as sent by foreign contracts other than through the
arbitrary balance changes between transactions.

## 5. Seeded bugs

`seeded/LOG.jsonl` has one line per deliberately wrong version of the model: the definition edited, the edit,
the claim it breaks, which theorems stopped proving, and which theorems were tightened because of it.
The edits were applied to a scratch copy; a theorem counts as failed if its own proof or a lemma it depends on
no longer checks.
