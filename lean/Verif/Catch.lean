import Verif.Chain
/-! # Transactions of several messages, and contracts that catch errors

The machine of `Chain.lean` runs one message per transaction, and any error ends the transaction. Here a transaction is a list of messages,
and a third-party contract may send a message with `reply_on` `Error` or `Always` (cosmwasm `SubMsg`; x/wasm `dispatchSubmessages`): if such
a message fails, with everything it caused, its effects are taken back, and the sender is told and may go on. No halo contract does that:
all submessages of `halo-pair/src/contract.rs:57-79` and `halo-factory/src/contract.rs:157-173` are `ReplyOn::Success`, all other messages are
plain. -/

namespace Halo

/-- Third-party contracts of one transaction. Whatever they do is indexed by the remaining fuel and by the caught messages inside of which it
happens (given by the fuel left when they were sent), so that no two calls share an index. `catches`: whether the errors of the message that
is now dispatched are caught; `fails`: whether it is made to fail by the limit on its gas.
`refuses`: whether the chain refuses to dispatch the message or reply for reasons of its own that are not in `step` (a coin whose transfer is
disabled, a blocked recipient, code that only some may instantiate, gas). -/
structure Agents where
  adv : List Nat → Adv
  catches : List Nat → Nat → Bool
  fails : List Nat → Nat → Bool
  refuses : List Nat → Nat → Bool

/-- Is there a third-party contract at this address? -/
def World.foreign (w : World) (a : Addr) : Bool :=
  match w.contracts a with
  | some ⟨_, .other⟩ => true
  | _ => false

/-- A frame, and whether a third-party contract sent it. -/
def marked (w : World) : Frame → Frame × Bool
  | .msg s m => (.msg s m, w.foreign s)
  | .reply a i x => (.reply a i x, false)

/-- Messages sent by a third-party contract. -/
def foreignMsgs (s : Addr) (ms : List SubMsg) : List (Frame × Bool) := ms.map fun m => (.msg s m, true)

/-- One step, unless the chain refuses it. -/
def dispatch (c : Chain) (A : Agents) (p : List Nat) (n : Nat) (w : World) (f : Frame) : R (World × List Frame) :=
  if A.refuses p n then .error .unauthorized else step c (A.adv p) n w f

/-- The stack machine with errors that can be caught. -/
def runC (c : Chain) (A : Agents) : Nat → List Nat → World → List (Frame × Bool) → R World
  | _, _, w, [] => .ok w
  | 0, _, _, _ :: _ => .error .outOfGas
  | n + 1, p, w, (.msg s m, b) :: fs =>
    if b && A.catches p n then
      match (if A.fails p n then .error .outOfGas else do
          let (w1, fs1) ← dispatch c A p n w (.msg s ⟨m.msg, none⟩)
          runC c A n (n :: p) w1 (fs1.map (marked w1)) : R World) with
      | .ok w1 => do
        let ms ← if m.replyId.isSome then (A.adv (n :: p)).act n s else .ok []
        runC c A n p w1 (foreignMsgs s ms ++ fs)
      | .error _ => do
        let ms ← (A.adv (n :: p)).act n s
        runC c A n p w (foreignMsgs s ms ++ fs)
    else do
      let (w1, fs1) ← dispatch c A p n w (.msg s m)
      runC c A n p w1 (fs1.map (marked w1) ++ fs)
  | n + 1, p, w, (.reply a i x, _) :: fs => do
    let (w1, fs1) ← dispatch c A p n w (.reply a i x)
    runC c A n p w1 (fs1.map (marked w1) ++ fs)

/-- A transaction: messages, each with its signer; all succeed or none does. -/
def runTxC (c : Chain) (A : Agents) (gas : Nat) (w : World) (ms : List (Addr × CosmosMsg)) : R World :=
  runC c A gas [] w (ms.map fun m => (.msg m.1 (plain m.2), false))

/-- `ChainStep` with such transactions. -/
inductive StepC (c : Chain) : World → World → Prop where
  | tx (A : Agents) (gas : Nat) (w w' : World) (ms : List (Addr × CosmosMsg)) (huser : ∀ m ∈ ms, c.IsUser m.1)
      (h : runTxC c A gas w ms = .ok w') : StepC c w w'
  | block (w : World) (b : Block) : StepC c w { w with block := b }
  | env (w : World) (bank' : Denom → AMap Addr Nat)
      (h : ∀ d n, (w.bank d).getD0 (c.addrOf n) ≤ (bank' d).getD0 (c.addrOf n)) :
      StepC c w { w with bank := bank' }

/-- Worlds reachable from an empty chain. -/
inductive ReachableC (c : Chain) : World → Prop where
  | genesis (w : World) (h : Genesis w) : ReachableC c w
  | step (w w' : World) (h : ReachableC c w) (hs : StepC c w w') : ReachableC c w'

/-- What a world can become. -/
inductive LaterC (c : Chain) : World → World → Prop where
  | refl (w : World) : LaterC c w w
  | step (u v w : World) (h : LaterC c u v) (hs : StepC c v w) : LaterC c u w

end Halo
