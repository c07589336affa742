import Verif.Model.SysInfo

/-!
# VM tokens: parsing, matching, expansion
-/
namespace Qrexec

/-- The four contexts (columns) in which a token may occur: the classes `Source`, `Target`,
`Redirect`, `IntendedTarget` (parser.py:381-453). -/
inductive Ctx where
  | source | target | redirect | intended
  deriving DecidableEq, Repr

/-- A `VMToken` instance: its class and its text.  `name s` is an instance of one of the
context classes themselves (a qube name or `uuid:...`), and also stands for a plain `str`
(`Request.source`).  The payload of the prefixed tokens is `self.value` (parser.py:336-339). -/
inductive Token where
  | name (s : Str)
  | wildcard
  | adminvm
  | anyvm
  | default
  | dispvm
  | typeVM (value : Str)
  | tagVM (value : Str)
  | dispvmTemplate (value : Str)
  | dispvmTag (value : Str)
  deriving DecidableEq, Repr

/-- The token as a string (`VMToken` is a subclass of `str`, parser.py:247). -/
def Token.str : Token → Str
  | .name s => s
  | .wildcard => c!"*"
  | .adminvm => c!"@adminvm"
  | .anyvm => c!"@anyvm"
  | .default => c!"@default"
  | .dispvm => c!"@dispvm"
  | .typeVM v => c!"@type:" ++ v
  | .tagVM v => c!"@tag:" ++ v
  | .dispvmTemplate v => c!"@dispvm:" ++ v
  | .dispvmTag v => c!"@dispvm:@tag:" ++ v

/-- parser.py:206-220 `VMTokenMeta.exacts`, in class-definition order
(parser.py:459, 484, 510, 534, 593), with the contexts each class inherits from. -/
def exactTokens : List (Str × Token × List Ctx) :=
  [ (c!"*", .wildcard, [.source, .target]),
    (c!"@adminvm", .adminvm, [.source, .target, .redirect, .intended]),
    (c!"@anyvm", .anyvm, [.source, .target]),
    (c!"@default", .default, [.target, .intended]),
    (c!"@dispvm", .dispvm, [.target, .redirect, .intended]) ]

/-- parser.py:206-220 `VMTokenMeta.prefixes`, in class-definition order
(parser.py:545, 569, 628, 670). -/
def prefixTokens : List (Str × (Str → Token) × List Ctx) :=
  [ (c!"@type:", .typeVM, [.source, .target]),
    (c!"@tag:", .tagVM, [.source, .target]),
    (c!"@dispvm:", .dispvmTemplate, [.source, .target, .redirect, .intended]),
    (c!"@dispvm:@tag:", .dispvmTag, [.source, .target]) ]

/-- The first loop of `VMToken.__new__` (parser.py:288-295). -/
def findExact (ctx : Ctx) (tok : Str) : List (Str × Token × List Ctx) → Option Token
  | [] => none
  | (e, t, ctxs) :: rest =>
    if ctxs.contains ctx && tok == e then some t else findExact ctx tok rest

/-- The second loop of `VMToken.__new__` and the final error (parser.py:297-320). -/
def findPrefix (ctx : Ctx) (tok : Str) : List (Str × (Str → Token) × List Ctx) → Except Err Token
  | [] => .error .policySyntax
  | (p, mk, ctxs) :: rest =>
    if ctxs.contains ctx && startsWith p tok then
      let value := tok.drop p.length
      if value.isEmpty then .error .policySyntax
      else if startsWith c!"@" value then findPrefix ctx tok rest
      else .ok (mk value)
    else findPrefix ctx tok rest

/-- parser.py:268-320 `VMToken.__new__`, for `cls` one of the four context classes. -/
def parseToken (ctx : Ctx) (tok : Str) : Except Err Token :=
  if tok.isEmpty then .error .policySyntax
  else if !(startsWith c!"@" tok || tok == c!"*") then .ok (.name tok)
  else match findExact ctx tok exactTokens with
    | some t => .ok t
    | none => findPrefix ctx tok prefixTokens

/-- `DispVMTemplate("@dispvm:" + name)` (parser.py:480, 530, 625, 703, 767): the same
`__new__` with `cls = DispVMTemplate`, which is the only subclass of itself. -/
def mkDispvmTemplate (name : Str) : Except Err Token :=
  if name.isEmpty then .error .policySyntax
  else if startsWith c!"@" name then .error .policySyntax
  else .ok (.dispvmTemplate name)

/-- parser.py:223-236 `match_strings`. -/
def matchStrings (info : Info) (self other : Str) : Bool :=
  if startsWith c!"uuid:" self then
    if startsWith c!"uuid:" other then self == other
    else match info.get? other with
      | none => false
      | some d => match d.uuid with
        | none => false
        | some u => self.drop 5 == u
  else if startsWith c!"uuid:" other then
    match info.get? self with
    | none => false
    | some d => match d.uuid with
      | none => false
      | some u => other.drop 5 == u
  else self == other

/-- The all-zero UUID of dom0. -/
def uuidZero : Str := c!"uuid:00000000-0000-0000-0000-000000000000"

/-- parser.py:239-244 `is_dom0`. -/
def isDom0 (s : Str) : Bool :=
  s == c!"@adminvm" || s == c!"dom0" || s == uuidZero

/-- parser.py:612-625 `DispVM.get_dispvm_template`. -/
def getDispvmTemplate (info : Info) (source : Str) : Except Err (Option Token) :=
  match info.get? source with
  | none => .ok none
  | some d => match d.defaultDispvm with
    | none => .ok none
    | some t => do
      let tok ← mkDispvmTemplate t
      return some tok

/-- First half of `DispVMTag.match` (parser.py:682-689): the disposable template meant by
the request's target, `some` of any other token unchanged, `none` if there is no default. -/
def requestedTemplate (info : Info) (source : Option Str) (other : Token) :
    Except Err (Option Token) :=
  match other with
  | .dispvm => match source with
    | some src => getDispvmTemplate info src
    | none => .error .assertion
  | o => .ok (some o)

/-- Second half of `DispVMTag.match` (parser.py:686-696). -/
def templateHasTag (info : Info) (v : Str) : Option Token → Except Err Bool
  | some (.dispvmTemplate w) => match info.get? w with
    | none => .error .keyError
    | some d => .ok (d.templateForDispvms && d.tags.contains v)
  | _ => .ok false

/-- `DispVMTemplate.match` (parser.py:632-648).  `match_strings(info, self, None)` raises
`AttributeError` (`None.startswith`). -/
def templateMatches (info : Info) (source : Option Str) (v : Str) (other : Token) :
    Except Err Bool :=
  match other with
  | .dispvm => match source with
    | none => .ok false
    | some src => match getDispvmTemplate info src with
      | .error e => .error e
      | .ok none => .error .attributeError
      | .ok (some t) => .ok (matchStrings info (c!"@dispvm:" ++ v) t.str)
  | .dispvmTemplate w => .ok (matchStrings info v w)
  | _ => .ok false

/-- The `match` methods (parser.py:349-361, 465-472, 500-507, 514-521, 549-557, 573-581,
597-604, 632-648, 674-696).  `self` is a rule token, `other` the request's target token or
(as `Token.name`) the source string, `source` the request's source when matching targets. -/
def Token.matches (info : Info) (source : Option Str) (self other : Token) : Except Err Bool :=
  match self with
  | .wildcard => .ok true
  | .adminvm => .ok (isDom0 other.str)
  | .anyvm => .ok (!isDom0 other.str)
  | .typeVM v => .ok <| match info.get? other.str with
    | none => false
    | some d => v == d.cls
  | .tagVM v => .ok <| match info.get? other.str with
    | none => false
    | some d => d.tags.contains v
  | .dispvm => .ok (c!"@dispvm" == other.str)
  | .dispvmTemplate v =>
    templateMatches info source v other
  | .dispvmTag v =>
    match requestedTemplate info source other with
    | .error e => .error e
    | .ok o => templateHasTag info v o
  | .name s =>
    if isDom0 s then .ok (isDom0 other.str) else .ok (matchStrings info s other.str)
  | .default => .ok (matchStrings info c!"@default" other.str)

/-- `IntendedTarget(name)` used as a string (parser.py:395, 478, 528, 566, 590). -/
def intendedName (s : Str) : Except Err Str := do
  let t ← parseToken .intended s
  return t.str

/-- The loops over `system_info["domains"].items()` in the `expand` methods. -/
def expandLoop (f : Str → Dom → Except Err (List Str)) : Info → Except Err (List Str)
  | [] => .ok []
  | (k, d) :: rest => do
    let here ← if startsWith c!"uuid:" k then .ok [] else f k d
    let more ← expandLoop f rest
    return here ++ more

/-- The `expand` methods (parser.py:388-395, 474-481, 489-490, 523-531, 538-539, 559-566,
583-590, 606-607, 650-656, 698-703), as the list of strings yielded.  Tokens without an
`expand` of their own (a plain name; `DefaultVM` yields nothing) use `_BaseTarget.expand`. -/
def Token.expand (info : Info) : Token → Except Err (List Str)
  | .wildcard => do
    let l ← expandLoop (fun k d => do
      let n ← intendedName k
      if d.templateForDispvms then
        let t ← mkDispvmTemplate k
        return [n, t.str]
      else return [n]) info
    return l ++ [c!"@dispvm"]
  | .adminvm => .ok [c!"@adminvm"]
  | .anyvm => do
    let l ← expandLoop (fun k d => do
      let n ← if isDom0 k then .ok [] else (intendedName k).map (fun x => [x])
      if d.templateForDispvms then
        let t ← mkDispvmTemplate k
        return n ++ [t.str]
      else return n) info
    return l ++ [c!"@dispvm"]
  | .default => .ok []
  | .typeVM v => expandLoop (fun k d =>
      if d.cls == v then (intendedName k).map (fun x => [x]) else .ok []) info
  | .tagVM v => expandLoop (fun k d =>
      if d.tags.contains v then (intendedName k).map (fun x => [x]) else .ok []) info
  | .dispvm => .ok [c!"@dispvm"]
  | .dispvmTemplate v => do
    let d ← info.lookup v
    if d.templateForDispvms then
      let n ← uuidToName info (c!"@dispvm:" ++ v)
      return [n]
    else return []
  | .dispvmTag v => expandLoop (fun k d =>
      if d.tags.contains v && d.templateForDispvms then
        (mkDispvmTemplate k).map (fun t => [t.str]) else .ok []) info
  | .name s =>
    if info.has s then do
      let n ← uuidToName info s
      let n ← intendedName n
      return [n]
    else .ok []

/-- The `verify` methods of `IntendedTarget` and its subclasses (parser.py:422-453, 492-493,
541-542, 609-610, 658-667).  `WildcardVM` etc. cannot occur (not intended-target tokens);
for them the model returns the token. -/
def Token.verify (info : Info) : Token → Except Err Token
  | .name s => if info.has s then .ok (.name s) else .ok .default
  | .dispvmTemplate v =>
    match info.get? v with
    | none => .error (.accessDenied true)
    | some d => if d.templateForDispvms then .ok (.dispvmTemplate v) else .error (.accessDenied true)
  | t => .ok t

end Qrexec
