import Verif.Chain
/-! # The event log

What the contracts of the project announce while a transaction runs (`Response::add_attribute(s)` in each `contract.rs`).
On a chain the attributes of a response are recorded together with the address of the contract that returned it, in the order
of execution; a failed transaction records nothing. Simplification: attributes returned by `cw20-base` are recorded
separately (`TokenLog.lean`), those of third-party contracts are left out (they are recorded under their own addresses). -/

namespace Halo

/-- The attributes of a response. -/
def eventsOf {σ : Type} : R (σ × Response) → List Event
  | .ok (_, r) => r.events
  | .error _ => []

/-- What is announced by executing one frame, and by whom: the response is the one `step` obtains from the same contract in the
same state. Instantiation and migration announce nothing in any of the four contracts. -/
def said (c : Chain) (adv : Adv) (n : Nat) (w : World) : Frame → List (Addr × Event)
  | .msg sender ⟨.exec contract m funds, _⟩ =>
    match c.api.resolve contract with
    | .error _ => []
    | .ok self =>
      match moveCoins w sender self funds with
      | .error _ => []
      | .ok w =>
        (match w.contracts self with
        | some ⟨_, .token s⟩ => eventsOf (Token.execute c.api w.block s sender m)
        | some ⟨_, .pair s⟩ => eventsOf (Pair.execute c.api (querier c (adv.query n) w) self s sender funds m)
        | some ⟨_, .factory s⟩ => eventsOf (Factory.execute c.api (querier c (adv.query n) w) self s sender m)
        | some ⟨_, .router s⟩ => eventsOf (Router.execute c.api (querier c (adv.query n) w) self s sender m)
        | _ => []).map (Prod.mk self)
  | .reply self _ created =>
    (match w.contracts self with
    | some ⟨_, .pair s⟩ => eventsOf (Pair.reply c.api s created)
    | some ⟨_, .factory s⟩ => eventsOf (Factory.reply c.api (querier c (adv.query n) w) s created)
    | _ => []).map (Prod.mk self)
  | _ => []

/-- What is announced while the frames run, in order. -/
def log (c : Chain) (adv : Adv) : Nat → World → List Frame → List (Addr × Event)
  | _, _, [] => []
  | 0, _, _ :: _ => []
  | n + 1, w, f :: fs =>
    said c adv n w f ++ match step c adv n w f with
      | .ok (w', fs') => log c adv n w' (fs' ++ fs)
      | .error _ => []

end Halo
