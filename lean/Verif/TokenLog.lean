import Verif.Text
import Verif.Chain
/-! # What the tokens announce

The attributes that `cw20-base` 1.0.0 adds to the response of each message (`contract.rs`: `execute_transfer`,
`execute_burn`, `execute_mint`, `execute_send`, `execute_update_minter`; `allowances.rs`: the five others). halo-token passes every message on to it
(`contracts/halo-token/src/contract.rs:64-71`). The library is not in the repository; the attributes are those of its documentation. They depend on
the caller and the message only: an address in a message is repeated as it was written, which is its normal form, since the message
is refused otherwise. `Log.lean` leaves these announcements out; they are recorded under the token's address. -/

namespace Halo

/-- The attributes announced for a message that `u` sent to a token, if it is accepted. Instantiation announces nothing
(`contract.rs:17-61`), and the messages about marketing data are refused. -/
def tokenAttributes (u : Addr) : ExecMsg → List (Str × Str)
  | .transfer r x =>
    [(asc "action", asc "transfer"), (asc "from", u), (asc "to", r), (asc "amount", natToDec x)]
  | .burn x => [(asc "action", asc "burn"), (asc "from", u), (asc "amount", natToDec x)]
  | .mint r x => [(asc "action", asc "mint"), (asc "to", r), (asc "amount", natToDec x)]
  | .send r x _ => [(asc "action", asc "send"), (asc "from", u), (asc "to", r), (asc "amount", natToDec x)]
  | .increaseAllowance s x _ =>
    [(asc "action", asc "increase_allowance"), (asc "owner", u), (asc "spender", s), (asc "amount", natToDec x)]
  | .decreaseAllowance s x _ =>
    [(asc "action", asc "decrease_allowance"), (asc "owner", u), (asc "spender", s), (asc "amount", natToDec x)]
  | .transferFrom o r x =>
    [(asc "action", asc "transfer_from"), (asc "from", o), (asc "to", r), (asc "by", u), (asc "amount", natToDec x)]
  | .burnFrom o x => [(asc "action", asc "burn_from"), (asc "from", o), (asc "by", u), (asc "amount", natToDec x)]
  | .sendFrom o r x _ =>
    [(asc "action", asc "send_from"), (asc "from", o), (asc "to", r), (asc "by", u), (asc "amount", natToDec x)]
  | .updateMinter new => [(asc "action", asc "update_minter"), (asc "new_minter", new.getD (asc "None"))]
  | _ => []

/-- What the token at `t` announces when a frame is executed. -/
def tokenSaid (c : Chain) (t : Addr) : World × Frame → Option (List (Str × Str))
  | (w, .msg u ⟨.exec a m _, _⟩) =>
    match c.api.resolve a, w.contracts t with
    | .ok self, some ⟨_, .token _⟩ => if self = t then some (tokenAttributes u m) else none
    | _, _ => none
  | _ => none

/-- The announcements recorded under the address of the token `t`, in order. -/
def tokenLog (c : Chain) (t : Addr) (tr : List (World × Frame)) : List (List (Str × Str)) := tr.filterMap (tokenSaid c t)

end Halo
