import Verif.Model.DataPath
import Verif.Model.Rounds
import Verif.Model.ExecVm
import Verif.Model.ClientVm

/-!
# The bytes between local programs and the daemon, the agent

`Model/CDaemon` and `Model/VmAgent` start from messages that could or could not be read. Here they are made from the
bytes a client has sent so far, which are read with `read_all` (libqrexec/ioall.c:73-99) from a blocking socket: if there
are not enough of them, and the client has not closed the connection, the program waits.

Simplified: reads do not fail otherwise.
-/
namespace Qrexec

/-- `read_all`. -/
inductive Rd where
  | got (s rest : Str)
  | fails
  | waits
  deriving DecidableEq, Repr

/-- ioall.c:73-99 `read_all` of `n` bytes, when `s` has been sent and not been read; `closed`: nothing will follow. -/
def rdAll (n : Nat) (s : Str) (closed : Bool) : Rd :=
  if n ≤ s.length then .got (s.take n) (s.drop n) else if closed then .fails else .waits

/-- What the handling of a client that was reported begins with. -/
inductive LocalRead (α : Type) where
  /-- the event, and what has not been read -/
  | event (e : α) (rest : Str)
  /-- the program waits for more from this client, and does nothing else -/
  | waits
  deriving DecidableEq, Repr

/-- qrexec-daemon.c:717-745 `handle_client_hello`. -/
def readHello (fd : Nat) (s : Str) (closed : Bool) : LocalRead DEv :=
  match rdAll 8 s closed with
  | .waits => .waits
  | .fails => .event (.clientHello fd false) []
  | .got h s =>
    if u32of h ≠ 0x300 ∨ u32of (h.drop 4) ≠ 4 then .event (.clientHello fd false) s
    else match rdAll 4 s closed with
      | .waits => .waits
      | .fails => .event (.clientHello fd false) []
      | .got i s => .event (.clientHello fd (!decide (u32of i < 3))) s

/-- qrexec-daemon.c:692-715 `handle_cmdline_message_from_client`, 560-589 `handle_cmdline_body_from_client` until the body is
read. -/
def readMessage (fd : Nat) (written : Bool) (s : Str) (closed : Bool) : LocalRead DEv :=
  match rdAll 8 s closed with
  | .waits => .waits
  | .fails => .event (.clientGone fd) []
  | .got h s =>
    if u32of h ≠ msgExec ∧ u32of h ≠ msgJustExec ∧ u32of h ≠ msgConnect then .event (.clientGone fd) s
    else if u32of (h.drop 4) ≤ 8 then .event (.clientGone fd) s
    else if u32of (h.drop 4) > 65535 then .event (.clientGone fd) s
    else match rdAll (u32of (h.drop 4)) s closed with
      | .waits => .waits
      | .fails => .event (.clientGone fd) []
      | .got p s => .event (.clientMsg fd (u32of h) (u32of p) (u32of (p.drop 4)) (p.drop 8) written) s

/-- qrexec-daemon.c:748-774 `handle_message_from_client`, for a client that `ppoll` reported: it has sent something or closed the
connection. -/
def readClient (fd : Nat) (written : Bool) (st : ClientState) (s : Str) (closed : Bool) : Option (LocalRead DEv) :=
  match st with
  | .invalid => none
  | .hello => some (readHello fd s closed)
  | .cmdline => some (readMessage fd written s closed)
  | .running => some (.event (.clientGone fd) (s.drop 1))

/-- qrexec-agent.c:822-844 `handle_trigger_io`, behind `accept`. -/
def readTrigger (fd : Nat) (s : Str) (closed : Bool) : LocalRead VaEv :=
  match rdAll 8 s closed with
  | .waits => .waits
  | .fails => .event (.trigger fd none none) []
  | .got h s =>
    if u32of h ≠ 0x213 ∨ u32of (h.drop 4) ≤ 160 ∨ u32of (h.drop 4) > 160 + 65000 then
      .event (.trigger fd (some (u32of h, u32of (h.drop 4))) none) s
    else match rdAll (u32of (h.drop 4)) s closed with
      | .waits => .waits
      | .fails => .event (.trigger fd (some (u32of h, u32of (h.drop 4))) none) []
      | .got p s => .event (.trigger fd (some (u32of h, u32of (h.drop 4))) (some p)) s

/-! ## What the programs of this package write -/

/-- qrexec-daemon-common.c:94-105 `handle_daemon_handshake`. -/
def writeHello : Str := u32le 0x300 ++ u32le 4 ++ u32le 3

/-- qrexec-daemon-common.c:18-34 `negotiate_connection_params`. -/
def writeCommand (type domain : Nat) (cmd : Wire) : Str :=
  u32le type ++ u32le (8 + cmd.length) ++ (u32le domain ++ u32le 0) ++ cmd

/-- qrexec-daemon-common.c:277-298 `send_service_connect`. -/
def writeConnect (ident : Str) (domain port : Nat) : Str :=
  u32le 0x202 ++ u32le (8 + 32) ++ (u32le domain ++ u32le port) ++ identField ident

/-- qrexec-client-vm.c:265-296. -/
def writeTrigger (source : Option Str) (target service : Str) : Str :=
  u32le (cvMessage source target service).1 ++ u32le (cvMessage source target service).2.1 ++ (cvMessage source target service).2.2

/-- qrexec-daemon.c:640-648: the answer of the daemon with the port. -/
def writeReply (type remote port : Nat) : Str := u32le type ++ u32le 8 ++ (u32le remote ++ u32le port)

/-- How `negotiate_connection_params` ends. -/
inductive Negotiated where
  | ok (domain port : Nat)
  | fails
  | aborts
  | waits
  deriving DecidableEq, Repr

/-- qrexec-daemon-common.c:36-52. -/
def readReply (type : Nat) (s : Str) (closed : Bool) : Negotiated :=
  match rdAll 8 s closed with
  | .waits => .waits
  | .fails => .fails
  | .got h s =>
    if u32of h ≠ type then .aborts
    else if u32of (h.drop 4) ≠ 8 then .fails
    else match rdAll 8 s closed with
      | .waits => .waits
      | .fails => .fails
      | .got p _ => .ok (u32of p) (u32of (p.drop 4))

end Qrexec
