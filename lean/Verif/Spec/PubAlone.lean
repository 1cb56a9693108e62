import Verif.Spec.PubServer
/-!
# What concerns one subscriber of a publisher

`subView` picks out of a history of a publisher what concerns its `i`-th session: what the application published (and whether it had dropped the socket), and the polls
of this session with the way its connection took the writes, the timer and the clock. Everything else is left out: other subscribers, what they subscribe to, how
fast they read, accepting and authenticating, and everything before the session was started.
-/
namespace MsgRs.Pub
open MsgRs Spec

/-- One thing that concerns a subscriber. -/
inductive SubEv where
  /-- Its session was started; `dropped`: the application had dropped the socket before. -/
  | started (dropped : Bool)
  /-- The application called `publish` or `try_publish`. -/
  | published (c : PubCall)
  /-- Its session was polled (the `feed` of the environment is always `pending` here: it is the channel that answers). -/
  | polled (e : Env)
  /-- The application dropped the socket. -/
  | dropped

/-- What the action `a`, done in the state `s` with the result `s'`, means for session `i`. -/
def subEv (i : Nat) (s s' : Server A) (a : SrvAct A) : List SubEv :=
  if i < s.ses.length then
    match a with
    | .publish topic payload => if s.dropped then [] else [.published ⟨false, topic, payload⟩]
    | .tryPublish topic payload => if s.dropped then [] else [.published ⟨true, topic, payload⟩]
    | .session j e => if j = i then [.polled { e with feed := .pending }] else []
    | .drop => if s.dropped then [] else [.dropped]
    | _ => []
  else if i < s'.ses.length then [.started s.dropped] else []

/-- What the history `acts`, starting in the state `s`, means for session `i`. -/
def subView (L : Lossy) (i : Nat) (s : Server A) : List (SrvAct A) → List SubEv
  | [] => []
  | a :: as => subEv i s (s.act L a) a ++ subView L i (s.act L a) as

end MsgRs.Pub
