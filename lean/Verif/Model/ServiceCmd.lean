import Verif.Model.Str

/-!
# libqrexec/exec.c: commands for services, their lookup and their environment

Strings are C strings: no NUL characters. `malloc` does not fail.
-/
namespace Qrexec

/-- libqrexec-utils.h:60-110 `struct qrexec_parsed_command`: what is set for a Qubes RPC call. -/
structure RpcService where
  descriptor : Str
  name : Str
  arg : Option Str
  source : Str
  deriving DecidableEq, Repr

/-- libqrexec-utils.h:60-110 `struct qrexec_parsed_command`. -/
structure RpcCmd where
  username : Option Str
  nogui : Bool
  command : Str
  service : Option RpcService
  deriving DecidableEq, Repr

/-- exec.c:579-634: the text behind "QUBESRPC ". The descriptor ends at the first space (strchr), the name at the first
plus (memchr), the source domain at the next space or the end (strchrnul). -/
def parseService (body : Str) : Option RpcService :=
  match splitOnce ' ' body with
  | none => none
  | some (desc, rest) =>
    if desc.length == 0 then none
    else if desc.length > 65000 then none
    else
      let plus := splitOnce '+' desc
      let name := match plus with
        | some (n, _) => n
        | none => desc
      if name.length > 255 then none
      else if name.length < 1 then none
      else
        let source := rest.takeWhile (· != ' ')
        if source.length == 0 then none
        else some {
          descriptor := if plus.isNone then desc ++ ['+'] else desc
          name := name
          arg := plus.map Prod.snd
          source := source }

/-- exec.c:568-637: a Qubes RPC call or another command. -/
def parseCall (user : Option Str) (nogui : Bool) (text : Str) : Option RpcCmd :=
  if startsWith c!"QUBESRPC" text then
    match text.drop 8 with
    | ' ' :: body => match parseService body with
      | none => none
      | some s => some { username := user, nogui := nogui, command := body, service := some s }
    | _ => none
  else some { username := user, nogui := nogui, command := text, service := none }

/-- exec.c:561-637: what is behind the user name. -/
def parseRest (user : Option Str) (rest : Str) : Option RpcCmd :=
  if startsWith c!"nogui:" rest then parseCall user true (rest.drop 6) else parseCall user false rest

/-- exec.c:536-643 `parse_qubes_rpc_command`. -/
def parseRpcCommand (stripUsername : Bool) (cmdline : Str) : Option RpcCmd :=
  if stripUsername then
    match splitOnce ':' cmdline with
    | none => none
    | some (u, rest) => parseRest (some u) rest
  else parseRest none cmdline

/-! ## Environment of a service -/

/-- exec.c:54-61 `should_strip_env_var`. -/
def shouldStripEnv (var : Str) : Bool :=
  if !startsWith c!"QREXEC" var then false
  else !startsWith c!"_SERVICE_PATH=" (var.drop 6) && !startsWith c!"_AGENT_PID=" (var.drop 6)

/-- exec.c:115-123: the non-empty pieces between spaces (strtok_r). -/
def strtokSpace (s : Str) : List Str := (splitOn ' ' s).filter fun w => !w.isEmpty

/-- What `execve` is called with. -/
structure ExecCall where
  path : Str
  argv : List Str
  env : List Str
  deriving DecidableEq, Repr

/-- exec.c:189-207, the pieces of the shell script that are always there. -/
def shellScript (target : Option Bool) (arg : Option Bool) : Str :=
  c!"set -e\nunset QREXEC_SERVICE_FULL_NAME QREXEC_REMOTE_DOMAIN QREXEC_REQUESTED_TARGET_TYPE " ++
  c!"QREXEC_SERVICE_ARGUMENT QREXEC_REQUESTED_TARGET QREXEC_REQUESTED_TARGET_KEYWORD\n" ++
  c!"export \"QREXEC_SERVICE_FULL_NAME=$2\" \"QREXEC_REMOTE_DOMAIN=$3\" QREXEC_REQUESTED_TARGET_TYPE=" ++
  (match target with
    | some true => c!"keyword QREXEC_REQUESTED_TARGET_KEYWORD=\"$5\""
    | some false => c!"name QREXEC_REQUESTED_TARGET=\"$5\""
    | none => []) ++ c!" " ++
  (match arg with
    | none => []
    | some _ => c!"\"QREXEC_SERVICE_ARGUMENT=$4\"") ++ c!"\n" ++
  c!"exec \"$1\" " ++
  (match arg with
    | some true => c!"\"$4\""
    | _ => [])

/-- exec.c:129-132, 139-149: type and name of the requested target, if the command has them. -/
def targetOf (more : List Str) : Option (Str × Str) :=
  match more with
  | [t, n] => some (t, n)
  | _ => none

/-- exec.c:139-150: the variables for the requested target. -/
def targetVars (target : Option (Str × Str)) : List Str :=
  match target with
  | some (t, n) => (c!"QREXEC_REQUESTED_TARGET_TYPE=" ++ t) ::
    (if t = c!"name" then [c!"QREXEC_REQUESTED_TARGET=" ++ n]
     else if t = c!"keyword" then [c!"QREXEC_REQUESTED_TARGET_KEYWORD=" ++ n]
     else [])
  | none => [c!"QREXEC_REQUESTED_TARGET_TYPE="]

/-- exec.c:154-155: the variable for the argument. -/
def argVars (arg : Option Str) : List Str :=
  match arg with
  | some a => [c!"QREXEC_SERVICE_ARGUMENT=" ++ a]
  | none => []

/-- exec.c:153-160: the argument of the program. -/
def argArgv (arg : Option Str) : List Str :=
  match arg with
  | some a => if a.length != 0 then [a] else []
  | none => []

/-- exec.c:173-174, 203-204: which of the two kinds of target. -/
def shellKind (target : Option (Str × Str)) : Option Bool :=
  match target with
  | some (t, _) => if t = c!"keyword" then some true else if t = c!"name" then some false else none
  | none => none

/-- exec.c:175, 213: the last parameter of the script. -/
def shellTarget (target : Option (Str × Str)) : List Str :=
  match target with
  | some (_, n) => [n]
  | none => []

/-- exec.c:63-220 `exec_qubes_rpc2`. `none`: the process exits with QREXEC_EXIT_PROBLEM. The bound of the array for the
environment (lines 68-93) is checked by `C64_no_abort`. -/
def execQubesRpc2 (program cmd : Str) (envp : List Str) (useShell : Bool) : Option ExecCall :=
  let kept := envp.filter fun v => !shouldStripEnv v
  let toks := strtokSpace cmd
  if toks.length > 9 then none
  else if program.head? != some '/' then none
  else match toks with
    | fullName :: remote :: more =>
      if more.length != 0 && more.length != 2 then none
      else
        let arg := (splitOnce '+' fullName).map Prod.snd
        if !useShell then
          some {
            path := program
            argv := program :: argArgv arg
            env := kept ++ (targetVars (targetOf more) ++
              ([c!"QREXEC_SERVICE_FULL_NAME=" ++ fullName, c!"QREXEC_REMOTE_DOMAIN=" ++ remote] ++ argVars arg)) }
        else
          some {
            path := c!"/bin/sh"
            argv := [c!"/bin/sh", c!"-lc", shellScript (shellKind (targetOf more)) (arg.map fun a => a.length != 0), c!"sh",
              program, fullName, remote, arg.getD []] ++ shellTarget (targetOf more)
            env := kept }
    | _ => none

/-! ## Lookup of a service -/

/-- exec.c:704-721 `validate_port`. -/
def validatePort (port : Str) : Bool :=
  match port with
  | [] => false
  | d :: ds =>
    if d < '1' || d > '9' then false
    else if ds.any (fun c => c < '0' || c > '9') then false
    else if port.length > 5 then false
    else if port.length < 5 then true
    else strLe port c!"65535"

/-- What `stat` reports: a socket, or anything else that is not a link, with `euidaccess(..., X_OK)`. -/
inductive FileKind where
  | sock
  | other (executable : Bool)
  deriving DecidableEq, Repr

/-- Result of `stat`. -/
inductive StatRes where
  | ok (k : FileKind)
  | enoent
  | err
  deriving DecidableEq, Repr

/-- Result of `lstat`; for a link also the results of `readlink` and `stat`. -/
inductive LstatRes where
  | ok (k : FileKind)
  | enoent
  | err
  | link (target : Option Str) (st : StatRes)
  deriving DecidableEq, Repr

/-- Result of `find_file`. -/
inductive FindRes where
  | found (path : Str) (k : FileKind)
  | tcp (target : Str)
  | absent
  | error
  deriving DecidableEq, Repr

/-- exec.c:383-386, 443-445: the directories of a list. Empty ones are skipped, except at the start. -/
def pathDirs (list : Str) : List Str :=
  if list.length == 0 then []
  else match splitOn ':' list with
    | [] => []
    | d :: ds => d :: ds.filter fun x => x.length != 0

/-- exec.c:409-411: does the target of a link name a TCP service? -/
def isTcpLink (target : Str) : Bool := startsWith c!"/dev/tcp/" target || target == c!"/dev/tcp"

/-- exec.c:383-447, the loop of `find_file`, for a caller that wants `statbuf` (`wantTcp`) or not. -/
def findLoop (wantTcp : Bool) (fs : Str → LstatRes) (bufSize : Nat) (name : Str) : List Str → FindRes
  | [] => .absent
  | dir :: dirs =>
    if dir.length + name.length + 1 ≥ bufSize then .error
    else
      let path := dir ++ ['/'] ++ name
      let plain (st : StatRes) : FindRes := match st with
        | .ok k => .found path k
        | .enoent => findLoop wantTcp fs bufSize name dirs
        | .err => .error
      match fs path with
      | .ok k => plain (.ok k)
      | .enoent => plain .enoent
      | .err => plain .err
      | .link target st =>
        if wantTcp then match target with
          | none => .error
          | some tgt =>
            if isTcpLink tgt then
              if tgt.length ≥ bufSize then .error
              else if tgt.length == 9 then .error
              else .tcp tgt
            else plain st
        else plain st

/-- exec.c:356-451 `find_file`. -/
def findFile (wantTcp : Bool) (fs : Str → LstatRes) (bufSize : Nat) (pathList name : Str) : FindRes :=
  if name.length > 255 then .absent else findLoop wantTcp fs bufSize name (pathDirs pathList)

/-- exec.c:792-799, 462-467: the descriptor first, then the name. -/
def findDescOrName (wantTcp : Bool) (fs : Str → LstatRes) (bufSize : Nat) (pathList : Str) (s : RpcService) : FindRes :=
  match findFile wantTcp fs bufSize pathList s.descriptor with
  | .absent => findFile wantTcp fs bufSize pathList s.name
  | r => r

/-- What `find_qrexec_service` does: `unix`, `tcp`: it connects and puts `first` into the buffer for the service. -/
inductive SvcTarget where
  | notFound
  | failed
  | unix (path first : Str)
  | tcp (host port first : Str)
  | exec (path : Str)
  deriving DecidableEq, Repr

/-- Split at the last separator (strrchr). -/
def splitLast (sep : Char) : Str → Option (Str × Str)
  | [] => none
  | c :: cs => match splitLast sep cs with
    | some (a, b) => some (c :: a, b)
    | none => if c = sep then some ([], cs) else none

/-- exec.c:851, 879: no argument, or an empty one. -/
def noArgument (arg : Option Str) : Bool :=
  match arg with
  | none => true
  | some a => a.length == 0

/-- exec.c:838-884: host and port of a TCP service. `target`: the link, `arg`: the argument of the call. -/
def tcpAddress (target : Str) (arg : Option Str) : Option (Str × Str) :=
  match target.drop 8 with
  | '/' :: rest => match splitOnce '/' rest with
    | some (host, port) => if noArgument arg then some (host, port) else none
    | none => if noArgument arg then none else some (rest, arg.getD [])
  | _ =>
    if noArgument arg then none
    else match splitLast '+' (arg.getD []) with
      | none => none
      | some (host, port) =>
        if host.any (· == '_') then none
        else some (host.map (fun c => if c == '+' then ':' else c), port)

/-- exec.c:776-929 `find_qrexec_service`. `sockets`: `socket_fd` is given; `sendDesc`: `send_service_descriptor`.
The connection itself may fail (`connects`), also because `getaddrinfo` does not accept the host. -/
def findService (fs : Str → LstatRes) (bufSize : Nat) (pathList : Str) (sockets sendDesc connects : Bool)
    (command : Str) (s : RpcService) : SvcTarget :=
  let first := if sendDesc then command ++ [Char.ofNat 0] else []
  match findDescOrName true fs bufSize pathList s with
  | .absent => .notFound
  | .error => .failed
  | .found path .sock =>
    if !sockets then .failed else if connects then .unix path first else .failed
  | .tcp target =>
    if !sockets then .failed
    else match tcpAddress target s.arg with
      | none => .failed
      | some (host, port) =>
        if !validatePort port then .failed
        else if connects then .tcp host port first else .failed
  | .found path (.other x) => if x then .exec path else .failed

end Qrexec
