import Verif.Spec.Sub
/-!
# A publisher of a subscriber socket, alone

`aloneActs a` turns a history of a subscriber socket into a history of a socket that only ever knows the publisher at `a`: the calls that name other addresses are left
out, and so are the polls, the connection attempts and the sessions of other publishers. A call that is kept is made just before the driver takes its command out of
the queue (that is when it takes effect), and the application takes every message as soon as it can.
-/
namespace MsgRs.Sub
open MsgRs

variable {A : Type} [DecidableEq A]

/-- The sessions with the publisher at `a`, in the order in which they were started. -/
def ownSessions (a : A) (d : Driver A) : List Session := ((d.addrs.zip d.sessions).filter fun x => decide (x.1 = a)).map (·.2)

/-- The number of session `u` among those with `a`. -/
def rank (a : A) (addrs : List A) (u : Nat) : Nat := (addrs.take u).count a

/-- The messages of the publisher at `a` that the driver took from its sessions, in order: which session, the message, and whether its payload could be
decompressed. -/
def ownTaken (a : A) (d : Driver A) : List (Nat × TopicMsg × Bool) :=
  d.fates.filterMap fun x => if d.addrs[x.1]? = some a then some (rank a d.addrs x.1, x.2.1, decide (x.2.2 ≠ .undecodable)) else none

/-- The messages of the publisher at `a` that the user took or can take: topic and payload. -/
def ownReceived (a : A) (d : Driver A) : List (Str × Bytes) :=
  ((d.received ++ d.inbox).filter fun m => decide (m.source = a)).map fun m => (m.topic, m.payload)

/-- The call that makes the command, if it concerns `a` (subscriptions concern everyone). -/
def aloneCall (a : A) : Command A → List (Act A)
  | .subscribe t => [.call (.trySubscribe t)]
  | .unsubscribe t => [.call (.tryUnsubscribe t)]
  | .connect b => if b = a then [.call (.tryConnect a)] else []
  | .disconnect b => if b = a then [.call (.tryDisconnect a)] else []
  | .shutdown => []

/-- What the end of a connection attempt means, if it was one to `a`. -/
def aloneJoin (a : A) (tasks : List A) : Option (Nat × TaskOut) → Option (Nat × TaskOut)
  | some (i, out) => if tasks[i]? = some a then some (0, out) else none
  | none => none

/-- An iteration of the driver's loop, as far as `a` is concerned. -/
def aloneIter (D : Decompressors) (a : A) (d : Driver A) (e : Env A) : List (Act A) :=
  match d.pollPublishers D e.order with
  | .panic => []
  | .ok (d', progress) =>
    let order := e.order.filter fun b => decide (b = a)
    if progress then [.iter { order }]
    else
      match d'.cmdq with
      | c :: _ => aloneCall a c ++ [.iter { order }]
      | [] => [.iter { order, topicOrder := e.topicOrder, join := aloneJoin a d'.tasks e.join }]

/-- An action in the state `d`, as far as `a` is concerned. -/
def aloneAct (D : Decompressors) (a : A) (d : Driver A) : Act A → List (Act A)
  | .iter e => if d.started then aloneIter D a d e ++ [.call .recv] else []
  | .session u e => if d.addrs[u]? = some a then [.session (rank a d.addrs u) e] else []
  | .advance dt => [.advance dt]
  | .call _ => []
  | .dropSocket => []

/-- The history `acts`, starting in the state `d`, as far as `a` is concerned. -/
def aloneActs (L : Lossy) (D : Decompressors) (a : A) (d : Driver A) : List (Act A) → List (Act A)
  | [] => []
  | x :: xs =>
    aloneAct D a d x ++
      match d.act L D x with
      | .ok d' => aloneActs L D a d' xs
      | .panic => []

/-- An action that names no other address than `a`. -/
def Act.Only (a : A) : Act A → Prop
  | .iter e => ∀ b ∈ e.order, b = a
  | .call (.connect b) => b = a
  | .call (.tryConnect b) => b = a
  | .call (.disconnect b) => b = a
  | .call (.tryDisconnect b) => b = a
  | _ => True

end MsgRs.Sub
