import Verif.Catch
import Verif.Log
import Verif.Lemmas.TraceL
/-! # What is recorded of transactions of several messages with caught errors

`runC` with a record of what was executed and announced. If a message fails and its error is caught, whatever it caused is taken back,
including the events (x/wasm `dispatchSubmessages` emits the events of a submessage only if it succeeded), so nothing of it is recorded. -/

namespace Halo

/-- Executed frames, each with the world in which it was executed, and announcements. -/
structure Record where
  steps : List (World × Frame)
  events : List (Addr × Event)

/-- One record after another. -/
def Record.and (a b : Record) : Record := ⟨a.steps ++ b.steps, a.events ++ b.events⟩

/-- The record of a single step. -/
def recorded (c : Chain) (adv : Adv) (n : Nat) (w : World) (f : Frame) : Record := ⟨[(w, f)], said c adv n w f⟩

/-- `runC` with its record. -/
def recC (c : Chain) (A : Agents) : Nat → List Nat → World → List (Frame × Bool) → R (World × Record)
  | _, _, w, [] => .ok (w, ⟨[], []⟩)
  | 0, _, _, _ :: _ => .error .outOfGas
  | n + 1, p, w, (.msg s m, b) :: fs =>
    if b && A.catches p n then
      match (if A.fails p n then .error .outOfGas else do
          let (w1, fs1) ← dispatch c A p n w (.msg s ⟨m.msg, none⟩)
          let (w2, r) ← recC c A n (n :: p) w1 (fs1.map (marked w1))
          pure (w2, (recorded c (A.adv p) n w (.msg s ⟨m.msg, none⟩)).and r) : R (World × Record)) with
      | .ok (w1, r1) => do
        let ms ← if m.replyId.isSome then (A.adv (n :: p)).act n s else .ok []
        let (w2, r2) ← recC c A n p w1 (foreignMsgs s ms ++ fs)
        pure (w2, r1.and r2)
      | .error _ => do
        let ms ← (A.adv (n :: p)).act n s
        recC c A n p w (foreignMsgs s ms ++ fs)
    else do
      let (w1, fs1) ← dispatch c A p n w (.msg s m)
      let (w2, r) ← recC c A n p w1 (fs1.map (marked w1) ++ fs)
      pure (w2, (recorded c (A.adv p) n w (.msg s m)).and r)
  | n + 1, p, w, (.reply a i x, _) :: fs => do
    let (w1, fs1) ← dispatch c A p n w (.reply a i x)
    let (w2, r) ← recC c A n p w1 (fs1.map (marked w1) ++ fs)
    pure (w2, (recorded c (A.adv p) n w (.reply a i x)).and r)

/-- A transaction with its record. -/
def recTxC (c : Chain) (A : Agents) (gas : Nat) (w : World) (ms : List (Addr × CosmosMsg)) : R (World × Record) :=
  recC c A gas [] w (ms.map fun m => (.msg m.1 (plain m.2), false))

/-- A history of such transactions, with everything that was executed and announced. -/
inductive LoggedC (c : Chain) (u : World) : List (World × Frame) → List (Addr × Event) → World → Prop where
  | refl : LoggedC c u [] [] u
  | tx (tr : List (World × Frame)) (es : List (Addr × Event)) (A : Agents) (gas : Nat) (v w : World) (ms : List (Addr × CosmosMsg))
      (r : Record) (h : LoggedC c u tr es v) (hu : ∀ m ∈ ms, c.IsUser m.1) (hx : recTxC c A gas v ms = .ok (w, r)) :
      LoggedC c u (tr ++ r.steps) (es ++ r.events) w
  | block (tr : List (World × Frame)) (es : List (Addr × Event)) (v : World) (b : Block) (h : LoggedC c u tr es v) :
      LoggedC c u tr es { v with block := b }
  | env (tr : List (World × Frame)) (es : List (Addr × Event)) (v : World) (bank' : Denom → AMap Addr Nat)
      (h : LoggedC c u tr es v) (hb : ∀ d n, (v.bank d).getD0 (c.addrOf n) ≤ (bank' d).getD0 (c.addrOf n)) :
      LoggedC c u tr es { v with bank := bank' }

end Halo
