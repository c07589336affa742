import Verif.Model.VmAgent

/-!
# Specification of the agent in a qube, in terms of events and what is done for them
-/
namespace Qrexec.Spec
open Qrexec

/-- The history of an agent. -/
abbrev VaHistory := List (VaEv × List VaOut)

/-- What the end of a connection is seen by: the exit of a child, or the end of file on a descriptor; `lost`: by
nothing. -/
inductive VaKey where
  | child (pid : Nat)
  | socket (fd : Int)
  | lost
  deriving DecidableEq, Repr

/-- A connection: how its end is seen, and the domain and the port that it uses. -/
abbrev VaOpen := VaKey × Nat × Nat

/-- The connection that is begun by this action. -/
def opens : VaOut → Option VaOpen
  | .child (some pid) j => some (.child pid, j.domain, j.port)
  | .child none j => some (.lost, j.domain, j.port)
  | .forkServer fd _ _ domain port _ _ => some (.socket fd, domain, port)
  | .toClient fd domain port => some (.socket fd, domain, port)
  | _ => none

/-- Does this event end the connection? -/
def endedBy : VaEv → VaOpen → Bool
  | .childExit pid _, c => c.1 == .child pid
  | .poll ready, c => match c.1 with
    | .socket fd => decide (fd ∈ ready)
    | _ => false
  | _, _ => false

/-- A connection that begins is noted, if there are fewer than 256. -/
def noteOpen (l : List VaOpen) (c : VaOpen) : List VaOpen := if l.length < 256 then l ++ [c] else l

/-- The connections after one more event. -/
def openStep (l : List VaOpen) (x : VaEv × List VaOut) : List VaOpen :=
  (x.2.filterMap opens).foldl noteOpen (l.filter fun c => !endedBy x.1 c)

/-- The connections that have begun and not ended. -/
def openConns (h : VaHistory) : List VaOpen := h.foldl openStep []

/-- The reports of ended connections among the actions. -/
def reports (o : List VaOut) : List (Nat × Nat) :=
  o.filterMap fun x => match x with
    | .terminated domain port => some (domain, port)
    | _ => none

/-- The requests that are started by the actions. -/
def startedJobs (o : List VaOut) : List VaJob :=
  o.filterMap fun x => match x with
    | .child _ j => some j
    | .forkServer _ _ _ _ _ _ j => some j
    | _ => none

/-- The request in an event: to run a command. -/
def requestOf (load : RpcService → Option SvcConf) : VaEv → Option VaJob
  | .exec type domain port body _ _ => if type = 0x202 then none else some (vaJob load type domain port body)
  | _ => none

/-- The process that waits for the session and has not ended. -/
def sessionProc (h : VaHistory) : Option Nat :=
  h.foldl (fun s x =>
    let s := match x.1 with
      | .childExit pid _ => if s = some pid then none else s
      | _ => s
    x.2.foldl (fun s y => match y with
      | .session pid _ _ => some pid
      | _ => s) s) none

/-- The requests that have been received and not started yet, in the order of their arrival. -/
def postponed (load : RpcService → Option SvcConf) (h : VaHistory) : List VaJob :=
  h.foldl (fun l x => match requestOf load x.1 with
    | some j => if startedJobs x.2 = [] then l ++ [j] else l
    | none => l.filter fun j => !decide (j ∈ startedJobs x.2)) []

/-! ## Requests of clients -/

/-- What a descriptor of the agent is used for: the `k`-th event was a request of the client at its other end, which waits for
the answer; or the end of a connection is seen by it. -/
inductive FdUse where
  | request (k : Nat)
  | connection
  deriving DecidableEq, Repr

/-- The descriptors after one more action. -/
def useOut (u : Int → Option FdUse) : VaOut → Int → Option FdUse
  | .closed fd => fun g => if g = fd then none else u g
  | .toClient fd _ _ => fun g => if g = fd then some .connection else u g
  | .forkServer fd _ _ _ _ _ _ => fun g => if g = (fd : Int) then some .connection else u g
  | _ => u

/-- A client connects: its descriptor. -/
def useEvent (n : Nat) (u : Int → Option FdUse) : VaEv → Int → Option FdUse
  | .trigger fd _ _ => fun g => if g = (fd : Int) then some (.request n) else u g
  | _ => u

/-- The descriptors after the `n`-th event. -/
def useStep (n : Nat) (u : Int → Option FdUse) (x : VaEv × List VaOut) : Int → Option FdUse :=
  x.2.foldl useOut (useEvent n u x.1)

/-- The descriptors after the first `n` events of a history. -/
def usesAt (h : VaHistory) : Nat → Int → Option FdUse
  | 0 => fun _ => none
  | n + 1 => match h[n]? with
    | some x => useStep n (usesAt h n) x
    | none => usesAt h n

/-- The answer of the daemon in an event, as the identifier it names. -/
def answerOf : VaEv → Option Wire
  | .refused ident => some ident
  | .exec type _ _ body _ _ => if type = 0x202 then some body else none
  | _ => none

/-- The kernel: a new descriptor is not in use; a client is read from as far as asked; a descriptor is invalid only if it is
not in use. -/
structure KernelOk (h : VaHistory) : Prop where
  accept : ∀ (n fd : Nat) hdr body o, h[n]? = some (VaEv.trigger fd hdr body, o) → usesAt h n fd = none ∧ fd < 2 ^ 31
  read : ∀ (n fd t l : Nat) (b : Wire) o, h[n]? = some (VaEv.trigger fd (some (t, l)) (some b), o) → b.length = l
  connect : ∀ n e o, h[n]? = some (e, o) → ∀ fd u ty d p t j, VaOut.forkServer fd u ty d p t j ∈ o → usesAt h n fd = none
  valid : ∀ n ty d p body t ses o, h[n]? = some (.exec ty d p body t ses, o) → t.badFd = true →
    ∀ fd : Nat, scanSocket (cString body) = .fd fd → usesAt h n fd = none

/-- The daemon: each answer is for an earlier request that was forwarded to it, with the identifier it came with, and no
request is answered twice.  `ans n` is the request that event `n` answers. -/
structure DaemonOk (h : VaHistory) (ans : Nat → Nat) : Prop where
  request : ∀ n e o ident, h[n]? = some (e, o) → answerOf e = some ident → ans n < n ∧
    ∃ fd hdr body ty l b, h[ans n]? = some (.trigger fd hdr body, [.forward ty l b]) ∧ ident = (b.drop 128).take 32
  once : ∀ n m e e' o o', h[n]? = some (e, o) → h[m]? = some (e', o') → answerOf e ≠ none → answerOf e' ≠ none →
    ans n = ans m → n = m

end Qrexec.Spec
