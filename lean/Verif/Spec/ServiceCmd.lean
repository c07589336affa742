import Verif.Model.ServiceCmd

/-!
# Specification: commands for services, environment, lookup
-/
namespace Qrexec

/-- The text of a service call: name, argument and source as written. -/
inductive ServiceText : Str → RpcService → Prop
  | noArg (name src tail : Str) (h1 : ' ' ∉ name) (h2 : '+' ∉ name) (h3 : 1 ≤ name.length) (h4 : name.length ≤ 255)
      (h5 : src ≠ []) (h6 : ' ' ∉ src) (h7 : tail = [] ∨ ∃ t, tail = ' ' :: t) :
      ServiceText (name ++ c!" " ++ src ++ tail) ⟨name ++ c!"+", name, none, src⟩
  | arg (name a src tail : Str) (h1 : ' ' ∉ name) (h2 : '+' ∉ name) (h3 : 1 ≤ name.length) (h4 : name.length ≤ 255)
      (h5 : src ≠ []) (h6 : ' ' ∉ src) (h7 : tail = [] ∨ ∃ t, tail = ' ' :: t) (h8 : ' ' ∉ a)
      (h9 : name.length + 1 + a.length ≤ 65000) :
      ServiceText (name ++ c!"+" ++ a ++ c!" " ++ src ++ tail) ⟨name ++ c!"+" ++ a, name, some a, src⟩

/-- The text of a command: `user:` if expected, `nogui:` if wanted, then a service call or anything else. -/
def CommandText (stripUsername : Bool) (line : Str) (c : RpcCmd) : Prop :=
  ∃ rest text,
    (if stripUsername then ∃ u, c.username = some u ∧ ':' ∉ u ∧ line = u ++ c!":" ++ rest
      else c.username = none ∧ line = rest) ∧
    (c.nogui = true ∧ rest = c!"nogui:" ++ text ∨ c.nogui = false ∧ rest = text ∧ ¬ c!"nogui:" <+: text) ∧
    ((∃ s, c.service = some s ∧ text = c!"QUBESRPC " ++ c.command ∧ ServiceText c.command s) ∨
      (c.service = none ∧ c.command = text ∧ ¬ c!"QUBESRPC" <+: text))

/-- `getenv`: the value of the first entry for the variable. -/
def getenv (env : List Str) (var : Str) : Option Str :=
  match env with
  | [] => none
  | e :: env => if (var ++ c!"=").isPrefixOf e then some (e.drop (var.length + 1)) else getenv env var

/-- A TCP port in decimal notation. -/
def IsPort (s : Str) : Prop :=
  s ≠ [] ∧ (∀ c ∈ s, '0' ≤ c ∧ c ≤ '9') ∧ s.head? ≠ some '0' ∧
    let n := s.foldl (fun n c => 10 * n + (c.toNat - '0'.toNat)) 0
    1 ≤ n ∧ n ≤ 65535

/-- A link that names a TCP service. -/
def TcpLink (target : Str) : Prop := target = c!"/dev/tcp" ∨ c!"/dev/tcp/" <+: target

/-- Nothing is there: no file, or a link to nothing. If the caller knows TCP services (`tcp`), a link that names one is
something. -/
def NothingAt (tcp : Bool) (fs : Str → LstatRes) (p : Str) : Prop :=
  fs p = .enoent ∨ ∃ t, fs p = .link t .enoent ∧ (tcp = true → ∃ t', t = some t' ∧ ¬ TcpLink t')

/-- A file of the kind is at `p`, maybe behind a link. -/
def FileAt (tcp : Bool) (fs : Str → LstatRes) (p : Str) (k : FileKind) : Prop :=
  fs p = .ok k ∨ ∃ t, fs p = .link t (.ok k) ∧ (tcp = true → ∃ t', t = some t' ∧ ¬ TcpLink t')

/-- The places where a service (or its configuration) is looked for, in order: first a file for this service with this
argument in all the directories, then one for the service. File names have at most 255 characters. -/
def servicePlaces (dirs : List Str) (s : RpcService) : List Str :=
  ([s.descriptor, s.name].filter fun n => decide (n.length ≤ 255)).flatMap fun n => dirs.map fun d => d ++ c!"/" ++ n

/-- `p` is the first place where there is something. -/
def FirstPlace (tcp : Bool) (fs : Str → LstatRes) (places : List Str) (p : Str) : Prop :=
  ∃ before after, places = before ++ p :: after ∧ ∀ q ∈ before, NothingAt tcp fs q

/-- Something is at `p` that cannot be used: it cannot be examined, or it is a link to a TCP service without host or with a
name that does not fit. -/
def BadAt (tcp : Bool) (fs : Str → LstatRes) (size : Nat) (p : Str) : Prop :=
  fs p = .err ∨ (∃ t, fs p = .link t .err ∧ (tcp = true → ∃ t', t = some t' ∧ ¬ TcpLink t')) ∨
  (tcp = true ∧ ∃ st, fs p = .link none st) ∨
  (tcp = true ∧ ∃ t st, fs p = .link (some t) st ∧ TcpLink t ∧ (size ≤ t.length ∨ t = c!"/dev/tcp/"))

/-- What a lookup finds is at the first place where there is something. -/
def FindSpec (tcp : Bool) (fs : Str → LstatRes) (size : Nat) (places : List Str) (r : FindRes) : Prop :=
  match r with
  | .found p k => FirstPlace tcp fs places p ∧ FileAt tcp fs p k
  | .tcp t => tcp = true ∧ TcpLink t ∧ t ≠ c!"/dev/tcp/" ∧ t.length < size ∧ ∃ p st, FirstPlace tcp fs places p ∧ fs p = .link (some t) st
  | .absent => ∀ p ∈ places, NothingAt tcp fs p
  | .error => (∃ p, FirstPlace tcp fs places p ∧ BadAt tcp fs size p) ∨ ∃ p ∈ places, size ≤ p.length

/-- Where a TCP service connects to: host and port fixed by the link; host fixed and the port from the caller; or both from
the caller, with plus signs instead of colons. -/
inductive TcpTo : Str → Option Str → Str → Str → Prop
  | fixed (host port : Str) (arg : Option Str) (h : '/' ∉ host) (ha : arg = none ∨ arg = some []) :
      TcpTo (c!"/dev/tcp/" ++ host ++ c!"/" ++ port) arg host port
  | port (host port : Str) (h : '/' ∉ host) (hp : port ≠ []) : TcpTo (c!"/dev/tcp/" ++ host) (some port) host port
  | both (host port : Str) (h : '_' ∉ host) (hp : '+' ∉ port) :
      TcpTo c!"/dev/tcp" (some (host ++ c!"+" ++ port)) (host.map fun c => if c = '+' then ':' else c) port

/-- What is done for a call. `sockets`: the caller of the lookup supports connections. The first bytes for a socket are the
description of the call, unless its configuration says otherwise. -/
def ServiceSpec (fs : Str → LstatRes) (places : List Str) (sockets sendDesc : Bool) (command : Str) (s : RpcService)
    (r : SvcTarget) : Prop :=
  match r with
  | .exec p => FirstPlace true fs places p ∧ FileAt true fs p (.other true)
  | .unix p first => sockets = true ∧ FirstPlace true fs places p ∧ FileAt true fs p .sock ∧
      first = if sendDesc = true then command ++ [Char.ofNat 0] else []
  | .tcp host port first => sockets = true ∧ (∃ p t st, FirstPlace true fs places p ∧ fs p = .link (some t) st ∧
      TcpLink t ∧ TcpTo t s.arg host port) ∧ IsPort port ∧
      first = if sendDesc = true then command ++ [Char.ofNat 0] else []
  | .notFound => ∀ p ∈ places, NothingAt true fs p
  | .failed => True

end Qrexec
