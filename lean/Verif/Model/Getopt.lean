import Verif.Model.PolicyExec
import Verif.Model.AdminClient

/-!
# How the programs take their command lines apart

`getopt_long` of the C library (getopt(3)), with the options of qrexec-client, qrexec-client-vm, qrexec-daemon and qrexec-agent,
and the code around it.  Every one of these programs ends at the first option that is not right, so nothing is read behind it.
-/
namespace Qrexec

/-- Short options with: has it an argument?  Long ones with the same and the value. -/
structure OptSpec where
  shorts : List (Char × Bool)
  longs : List (Str × Bool × Nat)

/-- What `getopt_long` reports: the value of an option and its argument, or `'?'`. -/
inductive GoItem where
  | opt (val : Nat) (arg : Option Str)
  | bad
  deriving DecidableEq, Repr

/-- What a long option is, by its name or by a beginning that belongs to one option only. -/
def findLong (S : OptSpec) (n : Str) : Option (Bool × Nat) :=
  match S.longs.find? fun l => l.1 = n with
  | some l => some l.2
  | none =>
    match S.longs.filter fun l => n.isPrefixOf l.1 with
    | [] => none
    | l :: ls => if ls.all fun m => m.2 = l.2 then some l.2 else none

/-- What a word of options is: complete, or in want of the next word. -/
inductive WordRes where
  | done (items : List GoItem)
  | needs (items : List GoItem) (val : Nat)
  deriving DecidableEq, Repr

def WordRes.cons (i : GoItem) : WordRes → WordRes
  | .done l => .done (i :: l)
  | .needs l v => .needs (i :: l) v

/-- Behind `-`: options of one character. -/
def shortWord (S : OptSpec) : Str → WordRes
  | [] => .done []
  | c :: cs =>
    match (S.shorts.find? fun s => s.1 = c).map Prod.snd with
    | none => .done [.bad]
    | some false => (shortWord S cs).cons (.opt c.toNat none)
    | some true => if cs = [] then .needs [] c.toNat else .done [.opt c.toNat (some cs)]

/-- Behind `--`. -/
def longWord (S : OptSpec) (w : Str) : WordRes :=
  match splitOnce '=' w with
  | some (n, a) =>
    match findLong S n with
    | some (true, v) => .done [.opt v (some a)]
    | _ => .done [.bad]
  | none =>
    match findLong S w with
    | some (true, v) => .needs [] v
    | some (false, v) => .done [.opt v none]
    | none => .done [.bad]

/-- The word of options `w` (more than a dash). -/
def optWord (S : OptSpec) (w : Str) : WordRes :=
  match w with
  | '-' :: '-' :: n => longWord S n
  | _ :: s => shortWord S s
  | [] => .done []

/-- Begins it with a dash and has more? -/
def isOptWord (w : Str) : Bool := w.head? == some '-' && w != c!"-"

/-- `getopt_long` until it returns -1, or `'?'` for the first time: what it reported, and the words from `optind` on at the end.
`stop`: the first word that is no option ends the options (a plus sign in front of the short options, or POSIXLY_CORRECT);
otherwise such words are moved behind the options. -/
def getopt (S : OptSpec) (stop : Bool) : List Str → List GoItem × List Str
  | [] => ([], [])
  | w :: ws =>
    if w = c!"--" then ([], ws)
    else if isOptWord w then
      match optWord S w with
      | .done items => if .bad ∈ items then (items, []) else (items ++ (getopt S stop ws).1, (getopt S stop ws).2)
      | .needs items v =>
        match ws with
        | [] => (items ++ [.bad], [])
        | a :: ws => (items ++ .opt v (some a) :: (getopt S stop ws).1, (getopt S stop ws).2)
    else if stop then ([], w :: ws)
    else ((getopt S stop ws).1, w :: (getopt S stop ws).2)

/-! ## qrexec-client-vm -/

/-- qrexec-client-vm.c:101-113, 161. -/
def cvSpec : OptSpec where
  shorts := [('t', false), ('T', false), ('a', true), ('p', true), ('s', true), ('h', false)]
  longs := [(c!"buffer-size", true, 98), (c!"filter-escape-chars-stdout", false, 116), (c!"filter-escape-chars-stderr", false, 84),
    (c!"no-filter-escape-chars-stdout", false, 244), (c!"no-filter-escape-chars-stderr", false, 212), (c!"agent-socket", true, 97),
    (c!"prefix-data", true, 112), (c!"use-stdin-socket", false, 245), (c!"source-qube", true, 115), (c!"help", false, 104)]

/-- qrexec-client-vm.c:164-234: which case is it? -/
def cvItem : GoItem → CvOpt
  | .opt v a =>
    if v = 98 then .bufferSize (a.getD [])
    else if v = 116 then .filterOut
    else if v = 84 then .filterErr
    else if v = 104 then .help
    else if v = 112 then .prefixData (a.getD [])
    else if v = 115 then .source (a.getD [])
    else if v = 244 then .noFilterOut
    else if v = 212 then .noFilterErr
    else if v = 97 then .agentSocket (a.getD [])
    else if v = 245 then .useStdinSocket
    else .bad
  | .bad => .bad

/-- qrexec-client-vm.c:135-348 `main` with the words behind its name. -/
def cvCommand (y : CvSys) (words : List Str) : Option (Str × Nat × Nat × Wire) × CvEnd :=
  cvMain y ((getopt cvSpec true words).1.map cvItem) (getopt cvSpec true words).2

/-! ## qrexec-client -/

/-- qrexec-client.c:80-92, 187. -/
def qcSpec : OptSpec where
  shorts := [('h', false), ('d', true), ('l', true), ('e', false), ('E', false), ('c', true), ('p', true), ('t', false), ('T', false),
    ('w', true), ('W', false), ('k', false)]
  longs := [(c!"help", false, 104), (c!"socket-dir", true, 228), (c!"no-exit-code", false, 69), (c!"prefix-data", true, 112),
    (c!"use-stdin-socket", false, 245)]

/-- qrexec-client.c:188-255: which case is it? -/
def qcItem : GoItem → QcOpt
  | .opt v a =>
    if v = 100 then .domain (a.getD [])
    else if v = 108 then .localProg (a.getD [])
    else if v = 101 then .justExec
    else if v = 69 then .noExitCode
    else if v = 99 then .connect (a.getD [])
    else if v = 112 then .prefixData (a.getD [])
    else if v = 116 then .filterOut
    else if v = 84 then .filterErr
    else if v = 119 then .timeout (a.getD [])
    else if v = 87 then .waitEnd
    else if v = 228 then .socketDir (a.getD [])
    else if v = 245 then .useStdinSocket
    else if v = 107 then .kill
    else .help
  | .bad => .help

/-- qrexec-client.c:158-424 `main` with the words behind its name; `posix`: POSIXLY_CORRECT is set. -/
def qcCommand (w : QcWorld) (posix : Bool) (words : List Str) : List QcAct × QcEnd × List QcAct :=
  qcMain w ((getopt qcSpec posix words).1.map qcItem) (getopt qcSpec posix words).2

/-- qrexec_policy_exec.py:317-327: the words behind the name of qrexec-client. -/
def peWords (disp : Bool) (target conn cmd : Str) : List Str :=
  [if disp then c!"-EWkd" else c!"-Ed", target, c!"-c", conn, c!"--", cmd]

/-! ## qrexec-daemon -/

/-- qrexec-daemon.c:1673-1681, 1716. -/
def dmSpec : OptSpec where
  shorts := [('h', false), ('q', false), ('p', true), ('D', false), ('u', true)]
  longs := [(c!"help", false, 104), (c!"quiet", false, 113), (c!"socket-dir", true, 228), (c!"policy-program", true, 112),
    (c!"direct", false, 68), (c!"uuid", true, 117)]

/-- The variables of qrexec-daemon. -/
structure DmVars where
  quiet : Bool := false
  dir : Str := c!"/var/run/qubes"
  policyProgram : Str := c!"/usr/bin/qrexec-policy-exec"
  direct : Bool := false
  uuid : Option Str := none
  deriving DecidableEq, Repr

/-- qrexec-daemon.c:1717-1738; `none`: `usage`, which exits with 1. -/
def dmOptions : DmVars → List GoItem → Option DmVars
  | v, [] => some v
  | v, .opt o a :: is =>
    if o = 113 then dmOptions { v with quiet := true } is
    else if o = 228 then dmOptions { v with dir := a.getD [] } is
    else if o = 112 then dmOptions { v with policyProgram := a.getD [] } is
    else if o = 68 then dmOptions { v with direct := true } is
    else if o = 117 then dmOptions { v with uuid := a } is
    else none
  | _, .bad :: _ => none

/-- `atoi` of a text without a sign or space in front: the number its leading digits make, 0 if there are none (values that do
not fit are not modelled). -/
def atoiNat (s : Str) : Nat := (takeDigits 10 s).1

/-- What `init` and the main loop get (qrexec-daemon.c:1740-1751): the variables, id, name and the default user, if one is
given; `none`: `exit(1)`. -/
def dmCommand (posix : Bool) (words : List Str) : Option (DmVars × Nat × Str × Option Str) :=
  match dmOptions {} (getopt dmSpec posix words).1 with
  | none => none
  | some v =>
    match (getopt dmSpec posix words).2 with
    | [id, name] => if v.uuid.isSome then some (v, atoiNat id, name, none) else none
    | [id, name, user] => if v.uuid.isSome then some (v, atoiNat id, name, some user) else none
    | _ => none

/-! ## qrexec-agent -/

/-- qrexec-agent.c:876-882, 906. -/
def agSpec : OptSpec where
  shorts := [('h', false), ('a', true), ('s', true), ('S', false)]
  longs := [(c!"help", false, 104), (c!"agent-socket", true, 97), (c!"fork-server-socket", true, 115), (c!"no-fork-server", false, 83)]

/-- The variables of qrexec-agent: where it listens, and where fork servers are; `none`: it does not look for one. -/
structure AgVars where
  trigger : Str := c!"/var/run/qubes/qrexec-agent"
  fork : Option Str := some c!"/var/run/qubes/qrexec-server.%s.sock"
  deriving DecidableEq, Repr

/-- qrexec-agent.c:904-923; `none`: `usage`, which exits with 2. -/
def agOptions : AgVars → List GoItem → Option AgVars
  | v, [] => some v
  | v, .opt o a :: is =>
    if o = 97 then agOptions { v with trigger := a.getD [] } is
    else if o = 115 then agOptions { v with fork := a } is
    else if o = 83 then agOptions { v with fork := none } is
    else none
  | _, .bad :: _ => none

def agCommand (posix : Bool) (words : List Str) : Option AgVars := agOptions {} (getopt agSpec posix words).1

end Qrexec
