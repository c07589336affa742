import Verif.Model.Exec
import Verif.Model.Sanitize

/-!
# The policy daemon (qrexec/tools/qrexec_policy_daemon.py)

A connection is modelled by all the bytes the peer sends before it closes its side.  The answer
is `none` when the connection is closed without one; the reasons (a logged error, an exception
caught by asyncio) are not distinguished.
-/
namespace Qrexec

/-- Byte strings: the byte `b` is the character with code `b`. -/
abbrev Wire := List Char

/-- `decode("ascii")` / `encode("ascii", "strict")` succeeds. -/
def isAscii (s : Wire) : Bool := s.all fun c => c.toNat < 128

/-- The default limit of an `asyncio.StreamReader`: `readline` and `readuntil` raise when the
separator is not found within it. -/
def streamLimit : Nat := 65536

/-- qrexec_policy_daemon.py:66-70. -/
def requiredArguments : List Str := [c!"source", c!"intended_target", c!"service_and_arg"]

/-- qrexec_policy_daemon.py:72-80. -/
def allowedArguments : List Str :=
  requiredArguments ++ [c!"assume_yes_for_ask", c!"just_evaluate", c!"requested_source"]

/-- `args[key]`, `none` if missing. -/
def argGet (args : List (Str × Str)) (key : Str) : Option Str :=
  match args with
  | [] => none
  | (k, v) :: rest => if k = key then some v else argGet rest key

/-- The loop of `handle_client_connection` (qrexec_policy_daemon.py:88-125).  The argument is
what successive `readline` calls return, without the newline; after the last piece `readline`
returns `b""`, which ends the loop like an empty line.  (`args[argument] = True/False` is kept as
`yes`/`no`.) -/
def daemonArgs : List Wire → List (Str × Str) → Option (List (Str × Str))
  | [], args => some args
  | line :: rest, args =>
    if line.length > streamLimit then none
    else if !isAscii line then none
    else if line.isEmpty then some args
    else match splitOnce '=' line with
      | none => none
      | some (argument, value) =>
        if (argGet args argument).isSome then none
        else if !allowedArguments.contains argument then none
        else if (argument == c!"assume_yes_for_ask" || argument == c!"just_evaluate") &&
            !(value == c!"yes" || value == c!"no") then none
        else daemonArgs rest (args ++ [(argument, value)])

/-- `handle_request(**args)` with its defaults, and the answer
(qrexec_policy_daemon.py:127-136; qrexec_policy_exec.py:345-357). -/
def daemonAnswer (sys : Option Info) (policy : Except Err (List Rule)) (agent : Agent)
    (args : List (Str × Str)) : List Event × Option Wire :=
  if !requiredArguments.all fun a => (argGet args a).isSome then ([], none)
  else
    let mode : Mode :=
      { justEvaluate := argGet args c!"just_evaluate" == some c!"yes"
        assumeYes := argGet args c!"assume_yes_for_ask" == some c!"yes" }
    let r := handleRequest sys policy agent mode
      ((argGet args c!"source").getD []) ((argGet args c!"intended_target").getD [])
      ((argGet args c!"service_and_arg").getD []) ((argGet args c!"requested_source").getD [])
    match r.2 with
    | .error _ => (r.1, none)
    | .ok s =>
      if s.isEmpty then (r.1, some c!"result=deny\n")
      else if isAscii s then (r.1, some s)
      else (r.1, none)

/-- qrexec_policy_daemon.py:84-139 `handle_client_connection`. -/
def handleClient (sys : Option Info) (policy : Except Err (List Rule)) (agent : Agent)
    (input : Wire) : List Event × Option Wire :=
  match daemonArgs (splitOn '\n' input) [] with
  | none => ([], none)
  | some args => daemonAnswer sys policy agent args

/-! ### The evaluation services -/

/-- One `stream.read(n)`, `n > 0`: the bytes that have arrived, at most `n`; `b""` at the end.
The stream is the list of the (non-empty) pieces in which the data arrives. -/
def streamRead (n : Nat) : List Wire → Wire × List Wire
  | [] => ([], [])
  | p :: ps => if p.length ≤ n then (p, ps) else (p.take n, p.drop n :: ps)

/-- qrexec_policy_daemon.py:142-155 `read_all_up_to_limit`; `fuel` bounds the number of
iterations (`limit` is enough: each reads at least one byte). -/
def readAllUpTo : Nat → Nat → List Wire → Wire
  | 0, _, _ => []
  | fuel + 1, limit, stream =>
    if limit = 0 then []
    else
      let r := streamRead limit stream
      if r.1.isEmpty then []
      else r.1 ++ readAllUpTo fuel (limit - r.1.length) r.2

/-- The checks of the untrusted names (qrexec_policy_daemon.py:209-245). -/
def evalNames (data : Wire) : Option (Str × Str) :=
  match splitOnce '\x00' data with
  | none => none
  | some (source, target) =>
    if !(1 ≤ target.length && target.length ≤ 63) then none
    else if !(1 ≤ source.length && source.length ≤ 31) then none
    else if !(isAscii source && isAscii target) then none
    else match sanitizeDomainName source true, sanitizeDomainName target true with
      | .ok _, .ok _ => some (source, target)
      | _, _ => none

/-- qrexec_policy_daemon.py:248-260: does `remote` provide the GUI of `dom`? -/
def providesGui (info : Info) (remote dom : Str) : Bool :=
  match info.get? dom with
  | none => false
  | some d => d.tags.contains (c!"guivm-" ++ remote)

/-- The evaluation and its answer (qrexec_policy_daemon.py:262-273). -/
def evalVerdict (info : Info) (policy : Except Err (List Rule)) (agent : Agent)
    (queried : Wire) (source target : Str) : List Event × Option Wire :=
  let r := handleRequest (some info) policy agent
    { justEvaluate := true, assumeYes := true } source target queried []
  match r.2 with
  | .error _ => (r.1, none)
  | .ok s => if isAscii s then (r.1, some (s ++ c!"\n")) else (r.1, none)

/-- qrexec_policy_daemon.py:247-273, the end of `qrexec_policy_eval`.  `info = none`:
`get_system_info` raises. -/
def evalFor (info : Option Info) (policy : Except Err (List Rule)) (agent : Agent)
    (checkGui : Bool) (remote : Str) (queried : Wire) (source target : Str) :
    List Event × Option Wire :=
  match info with
  | none => ([], none)
  | some info =>
    if checkGui && !(providesGui info remote source && providesGui info remote target) then
      ([], none)
    else if !isAscii queried then ([], none)
    else evalVerdict info policy agent queried source target

/-- qrexec_policy_daemon.py:181-273 `qrexec_policy_eval`. -/
def policyEval (info : Option Info) (policy : Except Err (List Rule)) (agent : Agent)
    (checkGui : Bool) (remote : Str) (queried : Option Wire) (data : Wire) :
    List Event × Option Wire :=
  match queried with
  | none => ([], none)
  | some queried =>
    if queried.isEmpty || startsWith c!"+" queried then ([], none)
    else match evalNames data with
      | none => ([], none)
      | some (source, target) => evalFor info policy agent checkGui remote queried source target

/-- qrexec_policy_daemon.py:158-178 `_extract_qrexec_parameters`: service, argument, remote domain
and the rest of the stream. -/
def extractParams (input : Wire) : Option (Wire × Option Wire × Str × Wire) :=
  match splitOnce ' ' input with
  | none => none
  | some (command, rest) =>
    if command.length > streamLimit then none
    else match splitOnce '\x00' rest with
      | none => none
      | some (metadata, data) =>
        if metadata.length > streamLimit then none
        else
          let remote := (splitOn ' ' metadata).headD []
          if !isAscii remote then none
          else match splitOnce '+' command with
            | none => some (command, none, remote, data)
            | some (service, arg) => some (service, some arg, remote, data)

/-- qrexec_policy_daemon.py:276-313 `handle_qrexec_connection`; `checkGui` and `serviceName` as in
`start_serving` (333-353). -/
def handleQrexec (info : Option Info) (policy : Except Err (List Rule)) (agent : Agent)
    (checkGui : Bool) (serviceName : Str) (input : Wire) : List Event × Option Wire :=
  match extractParams input with
  | none => ([], none)
  | some (service, queried, remote, data) =>
    if service != serviceName then ([], none)
    else policyEval info policy agent checkGui remote queried (data.take 96)

end Qrexec
