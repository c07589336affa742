import Verif.Model.CDaemon

/-!
# Specification of qrexec-daemon's bookkeeping, in terms of events and what is done for them
-/
namespace Qrexec.Spec
open Qrexec

/-- The history of a daemon: events, each with what was done for it. -/
abbrev History := List (DEv × List DOut)

/-- With this entry of the history, the client `fd` got the port for a connection between the
daemon's qube and the qube with id `domain`. -/
def Allocates (x : DEv × List DOut) (domain port : Nat) : Prop :=
  ∃ fd type buf, x.1 = .clientMsg fd type domain 0 buf true ∧ DOut.portReply fd port ∈ x.2

/-- This entry is a message of the agent that the connection on the port to `domain` has ended. -/
def Ends (x : DEv × List DOut) (domain port : Nat) : Prop := x.1 = .terminated domain port

/-- Clients give real domain ids. -/
def RealDomains (h : History) : Prop :=
  ∀ x ∈ h, ∀ fd type domain port buf w, x.1 = .clientMsg fd type domain port buf w → domain < 2 ^ 31

/-- The answers to requests with this identifier in a list of outputs. -/
def isAnswer (ident : Str) : DOut → Bool
  | .refused i => i == ident
  | .forward type _ _ _ text => type == 0x202 && text.takeWhile (· != '\x00') == ident
  | _ => false

/-- How many answers to requests with this identifier there are. -/
def answers (ident : Str) (h : History) : Nat := ((h.flatMap Prod.snd).filter (isAnswer ident)).length

/-- Is it a request with this identifier? -/
def isRequest (ident : Str) : DEv → Bool
  | .badTrigger i => i == ident
  | .trigger i _ => i == ident
  | _ => false

/-- How many requests with this identifier there are. -/
def requests (ident : Str) (h : History) : Nat := (h.filter fun x => isRequest ident x.1).length

/-- After this history, the child process `pid` runs: it was started, and neither its exit was seen
nor was the agent restarted since. -/
def alive (pid : Nat) (h : History) : Bool :=
  h.foldl (fun a x => match x.1 with
    | .trigger _ p => a || p == pid
    | .childExit p (some _) => a && p != pid
    | .restart => false
    | _ => a) false

/-- The kernel does not give the number of a running child to a new one. -/
def NoReuse (pid : Nat) (h : History) : Prop :=
  ∀ pre i o post, h = pre ++ (.trigger i pid, o) :: post → alive pid pre = false

/-- A client connects in answer to the request `ident`: its message is well-formed. -/
def Connects (ident : Str) (e : DEv) : Prop :=
  ∃ fd domain port buf w, e = .clientMsg fd 0x202 domain port buf w ∧
    buf ≠ [] ∧ buf.length ≤ 65527 ∧ buf.getLast? = some '\x00' ∧ buf.takeWhile (· != '\x00') = ident

/-- The client gives one of the 256 data ports, or asks for a port and gets one. -/
def HasPort (x : DEv × List DOut) : Prop :=
  ∃ fd type domain port buf w, x.1 = .clientMsg fd type domain port buf w ∧
    (513 ≤ port ∧ port < 513 + 256 ∨ ∃ p, DOut.portReply fd p ∈ x.2)

end Qrexec.Spec
