import Verif.Model.Sim
/-! # Words for the statements about the simulator -/
namespace MsgRs.Spec
open MsgRs Sim

/-- The shaping that traffic to address `a` gets from the system: the packet filter is on, an anchor of the main
ruleset sends traffic to `a` through a pipe, and the pipe exists. -/
def shaping [DecidableEq A] (s : Sys A) (a : A) : Option Config :=
  if s.enabled then
    s.main.findSome? fun i =>
      match s.anchors i with
      | some (b, p) => if b = a then s.pipes p else none
      | none => none
  else none

/-- The id of the simulation the simulator believes to be active on `a`. -/
def activeId [DecidableEq A] (s : Simulator A) (a : A) : Option Nat := (s.active.lookup a).map Simulation.id

/-- Every command succeeds. -/
def allOk : Cmd A → Bool := fun _ => true

end MsgRs.Spec
