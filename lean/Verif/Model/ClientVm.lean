import Verif.Model.DataPath
import Verif.Model.Trigger

/-!
# qrexec-client-vm (agent/qrexec-client-vm.c) and its connection (agent/qrexec-agent-data.c:346-411)

The options come as a list, in order, up to the first argument that is not an option (`Verif.Model.Getopt` has how they are
found). Not modelled: memory running out, failures of `socketpair`, the environment of the local program.
-/
namespace Qrexec

/-! ## Numbers on the command line -/

/-- The value of a digit. -/
def digitVal (c : Char) : Option Nat :=
  if decide (48 ≤ c.toNat) && decide (c.toNat ≤ 57) then some (c.toNat - 48)
  else if decide (97 ≤ c.toNat) && decide (c.toNat ≤ 122) then some (c.toNat - 87)
  else if decide (65 ≤ c.toNat) && decide (c.toNat ≤ 90) then some (c.toNat - 55)
  else none

/-- Is it a digit in this base? -/
def isDigitIn (base : Nat) (c : Char) : Bool :=
  match digitVal c with
  | some v => decide (v < base)
  | none => false

/-- The digits of a number, and what follows. -/
def takeDigits (base : Nat) (s : Str) : Nat × Str :=
  ((s.takeWhile (isDigitIn base)).foldl (fun n c => n * base + (digitVal c).getD 0) 0, s.dropWhile (isDigitIn base))

/-- `strtol(s, &end, 0)` and `strtoul(s, &end, 0)` for a text that begins with a decimal digit: the value (before it
saturates) and what `end` points to. A prefix `0x` counts only before a hexadecimal digit. -/
def strtolBase0 (s : Str) : Nat × Str :=
  match s with
  | '0' :: x :: d :: r =>
    if (x == 'x' || x == 'X') && isDigitIn 16 d then takeDigits 16 (d :: r) else takeDigits 8 s
  | '0' :: _ => takeDigits 8 s
  | _ => takeDigits 10 s

/-- qrexec-client-vm.c:159-178 (`--buffer-size`): the number, or `exit(1)`. The value saturates at `ULONG_MAX`, which is
more than `INT_MAX`. -/
def parseBufferSize (s : Str) : Option Nat :=
  match s with
  | [] => none
  | c :: _ =>
    if decide (c.toNat < 48) || decide (c.toNat > 57) then none
    else
      let r := strtolBase0 s
      if r.1 > 2147483647 then none
      else if r.2 ≠ [] then none
      else some r.1

/-! ## Options -/

/-- An option (qrexec-client-vm.c:99-111, 153-236). -/
inductive CvOpt where
  | bufferSize (s : Str)
  | filterOut
  | filterErr
  | help
  | prefixData (s : Str)
  | source (s : Str)
  | noFilterOut
  | noFilterErr
  | agentSocket (s : Str)
  | useStdinSocket
  | bad
  deriving DecidableEq, Repr

/-- The variables that options set. `filterOut`, `filterErr`: `replace_chars_stdout` and `_stderr`, `none` for -1. -/
structure CvVars where
  bufferSize : Nat := 0
  filterOut : Option Bool := none
  filterErr : Option Bool := none
  path : Str := c!"/var/run/qubes/qrexec-agent"
  pfx : Option Str := none
  source : Option Str := none
  stdinSocket : Bool := false
  deriving DecidableEq, Repr

/-- What the system does. `stdinStream`: descriptor 0 is a stream socket. `tty1`, `tty2`: `isatty`. `answer`: what is read
from the agent (at most 8 bytes are asked for, none at its end); `none`: the read fails. -/
structure CvSys where
  stdinStream : Bool := false
  tty1 : Bool := false
  tty2 : Bool := false
  connects : Bool := true
  sends : Bool := true
  answer : Option Wire := some []
  forks : Bool := true
  vchan : Bool := true
  version : Nat := 3
  deriving Repr

/-- One option; `error st`: `exit(st)`. -/
def cvOption (y : CvSys) (v : CvVars) : CvOpt → Except Nat CvVars
  | .bufferSize s => match parseBufferSize s with
    | some n => .ok { v with bufferSize := n }
    | none => .error 1
  | .filterOut => .ok { v with filterOut := some true }
  | .filterErr => .ok { v with filterErr := some true }
  | .help => .error 0
  | .prefixData s => if v.pfx.isSome then .error 2 else .ok { v with pfx := some s }
  | .source s => if v.source.isSome then .error 2 else .ok { v with source := some s }
  | .noFilterOut => .ok { v with filterOut := some false }
  | .noFilterErr => .ok { v with filterErr := some false }
  | .agentSocket s => .ok { v with path := s }
  | .useStdinSocket => if v.stdinSocket then .error 2 else if y.stdinStream then .ok { v with stdinSocket := true } else .error 2
  | .bad => .error 2

/-- qrexec-client-vm.c:153-236, the loop. -/
def cvOptions (y : CvSys) : CvVars → List CvOpt → Except Nat CvVars
  | v, [] => .ok v
  | v, o :: os => match cvOption y v o with
    | .ok v => cvOptions y v os
    | .error st => .error st

/-! ## The request -/

/-- `strncpy(field, s, size - 1)` into a field of zeroes. -/
def cvField (size : Nat) (s : Str) : Wire :=
  let t := s.take (size - 1)
  t ++ List.replicate (size - t.length) '\x00'

/-- qrexec-client-vm.c:84-92 `convert_target_name_keyword`. -/
def convertTarget (s : Str) : Str := s.map fun c => if c == '$' then '@' else c

/-- qrexec-client-vm.c:265-287: type, length and body of the message to the agent. -/
def cvMessage (source : Option Str) (target service : Str) : Nat × Nat × Wire :=
  (0x213, 160 + (service.length + 1),
    cvField 64 (source.getD []) ++ cvField 64 (convertTarget target) ++ cvField 32 c!"SOCKET" ++ (service ++ ['\x00']))

/-- How it ends: `exit(st)`, or `qrexec_process_io` on a connection to this domain and port, with a local program and its
arguments if there is one. -/
inductive CvEnd where
  | exit (st : Nat)
  | connected (domain port bufferSize : Nat) (program : Option (List Str)) (c : IoCfg) (socket : Bool) (pfx : Str)
  deriving Repr

/-- qrexec-agent-data.c:347-411 `handle_data_client` up to `qrexec_process_io`. -/
def dataClient (y : CvSys) (v : CvVars) (program : Option (List Str)) (filterOut filterErr : Option Bool) (domain port : Nat) :
    CvEnd :=
  if !y.vchan then .exit 1
  else .connected domain port (if v.bufferSize = 0 then 65536 else v.bufferSize) program
    { isService := false, hasPid := program.isSome, replaceOut := filterOut == some true, replaceErr := filterErr == some true,
      maxChunk := maxDataChunk y.version } v.stdinSocket (v.pfx.getD [])

/-- qrexec-client-vm.c:136-364 `main`: the socket and the message sent to the agent, if any, and how it ends. -/
def cvMain (y : CvSys) (opts : List CvOpt) (args : List Str) : Option (Str × Nat × Nat × Wire) × CvEnd :=
  match cvOptions y {} opts with
  | .error st => (none, .exit st)
  | .ok v => match args with
    | target :: service :: rest =>
      if !rest.isEmpty && v.stdinSocket then (none, .exit 2)
      else
        let filterOut := if rest.isEmpty && v.filterOut == none && y.tty1 then some true else v.filterOut
        let filterErr := if v.filterErr == none && y.tty2 then some true else v.filterErr
        if !y.connects then (none, .exit 1)
        else
          let m := cvMessage v.source target service
          if !y.sends then (some (v.path, m), .exit 1)
          else match y.answer with
            | none => (some (v.path, m), .exit 1)
            | some a =>
              if a.length = 0 then (some (v.path, m), .exit 126)
              else if a.length ≠ 8 then (some (v.path, m), .exit 1)
              else if !rest.isEmpty then
                if !y.forks then (some (v.path, m), .exit 255)
                else (some (v.path, m), dataClient y v (some rest) filterOut filterErr (u32of a) (u32of (a.drop 4)))
              else (some (v.path, m), dataClient y v none filterOut filterErr (u32of a) (u32of (a.drop 4)))
    | _ => (none, .exit 2)

/-- qrexec-client-vm.c:363: what the caller of the program sees of the status that `qrexec_process_io` returns. -/
def exitStatus (ret : Int) : Nat := (ret % 256).toNat

end Qrexec
