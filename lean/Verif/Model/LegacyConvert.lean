import Verif.Model.Print
import Verif.Model.Loader

/-!
# qrexec-legacy-convert

qrexec/tools/qrexec_legacy_convert.py.  Loading the policy and drawing the graph are parameters of a run
(`ConvWorld`; see `Model/Loader.lean` and `Model/Graph.lean`).  The disk holds the files of the two directories
`POLICYPATH` and `POLICYPATH_OLD`, as texts; subdirectories, symbolic links and ownership are not modelled, and the
only failure of an operation is a missing file.
-/
namespace Qrexec

/-- A `Rule` with its line number (parser.py:1354-1458); the implicit denials of `!compat-4.0` have none
(parser_compat.py:155-171).  This is the `RuleWrapper` (qrexec_legacy_convert.py:81-84). -/
structure LRule where
  rule : Rule
  lineno : Option Nat
  deriving DecidableEq, Repr

/-- `CONFIG_FILE` (qrexec_legacy_convert.py:35). -/
def convUserFile : Str := c!"30-user"

/-- `SERVICE_TO_FILE` (qrexec_legacy_convert.py:37-49). -/
def serviceToFile : List (Str × Str) :=
  [ (c!"qubes.ClipboardPaste", c!"50-config-clipboard"),
    (c!"qubes.Filecopy", c!"50-config-filecopy"),
    (c!"qubes.UpdatesProxy", c!"50-config-updates"),
    (c!"qubes.OpenInVM", c!"50-config-openinvm"),
    (c!"qubes.OpenURL", c!"50-config-openurl"),
    (c!"qubes.InputKeyboard", c!"50-config-input"),
    (c!"qubes.InputMouse", c!"50-config-input"),
    (c!"qubes.InputTablet", c!"50-config-input"),
    (c!"u2f.Authenticate", c!"50-config-u2f"),
    (c!"u2f.Register", c!"50-config-u2f"),
    (c!"policy.RegisterArgument", c!"50-config-u2f") ]

/-- The keys of `rules_to_save`, in order (qrexec_legacy_convert.py:222-224). -/
def convFiles : List Str :=
  [ convUserFile, c!"50-config-clipboard", c!"50-config-filecopy", c!"50-config-updates", c!"50-config-openinvm",
    c!"50-config-openurl", c!"50-config-input", c!"50-config-u2f" ]

/-- `DISCLAIMER` (qrexec_legacy_convert.py:51-60). -/
def convDisclaimer : Str :=
  c!"\n# Policy rules in this file were automatically converted from old\n# policy format. Old files can be found in /etc/qubes-rpc/policy; they have\n# the suffix .rpmsave.\n\n# All rules pertaining to qubes.Gpg were moved to this file. If you want to\n# move them to the relevant GUI config file, see 50-config-splitgpg. Caution:\n# the GUI tool for qubes.Gpg policy supports only policy rules that have a\n# single vm as a target.\n"

/-- `TOOL_DISCLAIMER` (qrexec_legacy_convert.py:62-65). -/
def toolDisclaimer : Str :=
  c!"\n# THIS IS AN AUTOMATICALLY GENERATED POLICY FILE.\n# Any changes made manually may be overwritten by Qubes Configuration Tools.\n"

/-- `token.type == "keyword"` (parser.py:363-373). -/
def isKeyword (t : Token) : Bool := startsWith c!"@" t.str || t.str == c!"*"

/-- Python `sub in s`. -/
def isInfix (sub s : Str) : Bool := startsWith sub s || (match s with
  | [] => false
  | _ :: cs => isInfix sub cs)

/-- `str(action.default_target)` or `str(action.target)`, `None` being printed as "None"
(qrexec_legacy_convert.py:116, 118). -/
def tokenOrNone (t : Option Token) : Str := (t.map Token.str).getD c!"None"

/-- The target looked at for qubes.OpenInVM and qubes.OpenURL (qrexec_legacy_convert.py:115-120): the action has to
print as just "ask" or "allow". -/
def openTarget (a : Action) : Str :=
  if a.print == c!"ask" then tokenOrNone (match a with | .ask _ d _ _ _ => d | _ => none)
  else if a.print == c!"allow" then tokenOrNone (match a with | .allow t _ _ _ => t | .ask t _ _ _ _ => t | _ => none)
  else c!"@dispvm"

/-- The test of the action of an input service (qrexec_legacy_convert.py:145-152). -/
def inputAction : Action → Bool
  | .deny _ => true
  | .allow (some t) _ _ _ => [c!"dom0", c!"@adminvm"].contains t.str
  | .allow none _ _ _ => true
  | .ask (some t) _ _ _ _ => [c!"dom0", c!"@adminvm"].contains t.str
  | .ask none (some d) _ _ _ => [c!"dom0", c!"@adminvm"].contains d.str
  | .ask none none _ _ _ => true

/-- qrexec_legacy_convert.py:86-87 `is_rule_simple`. -/
def isRuleSimple (r : Rule) : Bool := [c!"ask", c!"deny", c!"allow"].contains r.action.print

/-- qrexec_legacy_convert.py:89-154 `is_rule_compatible`. -/
def isRuleCompatible (r : Rule) : Bool :=
  if r.service == some c!"qubes.ClipboardPaste" then [c!"ask", c!"deny"].contains r.action.print
  else if r.service == some c!"qubes.Filecopy" then isRuleSimple r
  else if r.service == some c!"qubes.UpdatesProxy" then
    if isKeyword r.source && ![c!"@type:TemplateVM", c!"@tag:whonix-updatevm"].contains r.source.str then false
    else if !isInfix c!"allow" r.action.print then false
    else !isKeyword r.target || r.target.str == c!"@adminvm" || r.target.str == c!"@default"
  else if r.service == some c!"qubes.OpenInVM" || r.service == some c!"qubes.OpenURL" then
    if r.target.str != c!"@dispvm" then false else isInfix c!"@dispvm" (openTarget r.action)
  else if r.service == some c!"policy.RegisterArgument" then r.argument == some c!"+u2f.Authenticate"
  else if r.service == some c!"u2f.Authenticate" || r.service == some c!"u2f.Register" then
    if isKeyword r.target && r.target.str != c!"@adminvm" then false
    else (r.argument.getD []).isEmpty
  else if r.service == some c!"qubes.InputKeyboard" || r.service == some c!"qubes.InputMouse" ||
      r.service == some c!"qubes.InputTablet" then
    if ![c!"dom0", c!"@adminvm"].contains r.target.str then false
    else if isKeyword r.source then false
    else inputAction r.action
  else false

/-- qrexec_legacy_convert.py:156-160 `RuleWrapper.__eq__`. -/
def sameLine (a b : LRule) : Bool := a.rule.filepath == b.rule.filepath && a.lineno == b.lineno

/-- `if rule.lineno` (qrexec_legacy_convert.py:211). -/
def hasLine (r : LRule) : Bool := (r.lineno.getD 0) != 0

/-- `legacy_rules` (qrexec_legacy_convert.py:210-216). -/
def legacyRules (all new : List LRule) : List LRule :=
  (all.filter hasLine).filter fun r => !new.any (sameLine r)

/-- `rule.service == service` (qrexec_legacy_convert.py:227-228). -/
def ofService (service : Option Str) (l : List LRule) : List LRule := l.filter fun r => r.rule.service == service

/-- `missing` (qrexec_legacy_convert.py:227-238). -/
def missingRules (legacy new : List LRule) (service : Option Str) : List LRule :=
  let old := ofService service legacy
  let newStr := (ofService service new).map fun r => r.rule.print
  if (old.map fun r => r.rule.print) == newStr || old.isEmpty then []
  else old.filter fun r => !newStr.contains r.rule.print

/-- The rule at which the list is cut (qrexec_legacy_convert.py:242-247). -/
def isCatchAll (r : LRule) : Bool :=
  r.rule.action.print == c!"deny" && r.rule.source.str == c!"@anyvm" && r.rule.target.str == c!"@anyvm" &&
    (r.rule.argument.getD []).isEmpty

/-- qrexec_legacy_convert.py:240-252: the rules before the first catch-all denial. -/
def convertedRules (legacy new : List LRule) (service : Option Str) : List LRule :=
  (missingRules legacy new service).takeWhile fun r => !isCatchAll r

/-- `d.get(k)` on a dictionary of strings. -/
def strGet : List (Str × Str) → Str → Option Str
  | [], _ => none
  | (k, v) :: rest, x => if k = x then some v else strGet rest x

/-- The file a rule goes to (qrexec_legacy_convert.py:253-259). -/
def convDest (r : LRule) : Str :=
  if isRuleCompatible r.rule then
    (match r.rule.service with
      | none => convUserFile
      | some s => (strGet serviceToFile s).getD convUserFile)
  else convUserFile

/-- qrexec_legacy_convert.py:184-188: the loop of `split_input_rules`; a rule that is not kept is dropped, it does not
get into `remaining_rules`. -/
def splitLoop : List (Option Str × Str) → List LRule → List LRule
  | _, [] => []
  | combinations, r :: rs =>
    if combinations.contains (r.rule.service, r.rule.source.str) then
      r :: splitLoop (combinations.filter fun c => c != (r.rule.service, r.rule.source.str)) rs
    else splitLoop combinations rs

/-- `combinations` (qrexec_legacy_convert.py:173-177). -/
def inputCombinations (rules : List LRule) : List (Option Str × Str) :=
  [c!"qubes.InputKeyboard", c!"qubes.InputMouse", c!"qubes.InputTablet"].flatMap fun s =>
    rules.map fun r => (some s, r.rule.source.str)

/-- `rules_to_save[file]` after lines 226-266 of qrexec_legacy_convert.py, `services` being `all_services` in the order
of iteration; appending each rule to the list of its file keeps, for a file, the rules that go there. -/
def rulesToSave (services : List (Option Str)) (legacy new : List LRule) (file : Str) : List LRule :=
  let rules := (services.flatMap (convertedRules legacy new)).filter fun r => convDest r == file
  if file == c!"50-config-input" then splitLoop (inputCombinations rules) rules else rules

/-! ### Files -/

/-- The two directories `POLICYPATH` and `POLICYPATH_OLD`. -/
inductive ConvDir where
  | new | old
  deriving DecidableEq, Repr

/-- A file: its directory and name. -/
abbrev ConvPath := ConvDir × Str

/-- The files and their texts. -/
abbrev ConvDisk := List (ConvPath × Str)

/-- The text of a file, `none` if there is none. -/
def ConvDisk.get : ConvDisk → ConvPath → Option Str
  | [], _ => none
  | (k, v) :: rest, p => if k = p then some v else ConvDisk.get rest p

/-- The disk after the file is removed. -/
def ConvDisk.remove (d : ConvDisk) (p : ConvPath) : ConvDisk := d.filter fun e => e.1 != p

/-- The disk after the file is created or replaced. -/
def ConvDisk.set (d : ConvDisk) (p : ConvPath) (t : Str) : ConvDisk := (p, t) :: d.remove p

/-- An operation on the disk (qrexec_legacy_convert.py:284, 294, 303, 329-330). -/
inductive ConvOp where
  /-- `shutil.copy(src, dst)` -/
  | copy (src dst : ConvPath)
  /-- `file.write_text(text)` -/
  | write (p : ConvPath) (text : Str)
  | rename (src dst : ConvPath)
  | unlink (p : ConvPath)
  deriving DecidableEq, Repr

/-- Execute an operation; `none` is `FileNotFoundError`. -/
def ConvDisk.run (d : ConvDisk) : ConvOp → Option ConvDisk
  | .copy src dst => (d.get src).map fun t => d.set dst t
  | .write p text => some (d.set p text)
  | .rename src dst => (d.get src).map fun t => (d.remove src).set dst t
  | .unlink p => (d.get p).map fun _ => d.remove p

/-- Execute operations until one fails; whether all succeeded. -/
def ConvDisk.runAll : ConvDisk → List ConvOp → ConvDisk × Bool
  | d, [] => (d, true)
  | d, op :: ops =>
    match d.run op with
    | some d' => ConvDisk.runAll d' ops
    | none => (d, false)

/-- `while pathlib.Path(backup_name).exists(): backup_name = backup_name + suffix` (qrexec_legacy_convert.py:281-282,
300-301); the number bounds the iterations, see `freshName_fresh`. -/
def freshName (d : ConvDisk) (dir : ConvDir) (suffix : Str) : Nat → Str → Str
  | 0, name => name
  | n + 1, name => if (d.get (dir, name)).isSome then freshName d dir suffix n (name ++ suffix) else name

/-- The backup name of a file (qrexec_legacy_convert.py:280-282, 299-301). -/
def backupName (d : ConvDisk) (dir : ConvDir) (suffix name : Str) : Str :=
  freshName d dir suffix d.length (name ++ suffix)

/-- `s.lstrip("\n")`. -/
def lstripNl (s : Str) : Str := s.dropWhile (· == '\n')

/-- `s.rstrip("\n")`. -/
def rstripNewline (s : Str) : Str := (lstripNl s.reverse).reverse

/-- The text for the rules (qrexec_legacy_convert.py:276-277). -/
def rulesText (file : Str) (rules : List LRule) : Str :=
  (if file == convUserFile then convDisclaimer else toolDisclaimer) ++ joinWith '\n' (rules.map fun r => r.rule.print) ++
    c!"\n"

/-- The text put before the present one (qrexec_legacy_convert.py:288-291); `raw` is the content of the file. -/
def mergeText (text raw : Str) : Str :=
  let current := universalNewlines raw
  let current := if startsWith toolDisclaimer current then current.drop toolDisclaimer.length else current
  rstripNewline text ++ c!"\n" ++ lstripNl current

/-- The file of policy.d that belongs to a key of `rules_to_save` (qrexec_legacy_convert.py:275). -/
def convPath (file : Str) : ConvPath := (.new, file ++ c!".policy")

/-- Saving the rules of one file (qrexec_legacy_convert.py:271-294): the operations, and the entry of `backups_made`. -/
def saveFile (d : ConvDisk) (file : Str) (rules : List LRule) : List ConvOp × List (ConvPath × ConvPath) :=
  if rules.isEmpty then ([], [])
  else
    let p := convPath file
    let text := rulesText file rules
    match d.get p with
    | none => ([.write p text], [])
    | some raw =>
      let b : ConvPath := (.new, backupName d .new c!".bak" p.2)
      ([.copy p b, .write p (if file == c!"50-config-input" then text else mergeText text raw)], [(p, b)])

/-- The loop of lines 271-294 of qrexec_legacy_convert.py. -/
def savePlan (save : Str → List LRule) : ConvDisk → List Str → List ConvOp × List (ConvPath × ConvPath)
  | _, [] => ([], [])
  | d, file :: files =>
    let s := saveFile d file (save file)
    let r := savePlan save (d.runAll s.1).1 files
    (s.1 ++ r.1, s.2 ++ r.2)

/-- The loop of lines 297-303 of qrexec_legacy_convert.py; the names are those `iterdir()` lists. -/
def renamePlan : ConvDisk → List Str → List ConvOp × List (ConvPath × ConvPath)
  | _, [] => ([], [])
  | d, name :: names =>
    if endsWith c!".rpmsave" name then renamePlan d names
    else
      let b : ConvPath := (.old, backupName d .old c!".rpmsave" name)
      let op := ConvOp.rename (.old, name) b
      let r := renamePlan (d.runAll [op]).1 names
      (op :: r.1, ((.old, name), b) :: r.2)

/-- qrexec_legacy_convert.py:328-330. -/
def revertOps (backups : List (ConvPath × ConvPath)) : List ConvOp :=
  backups.flatMap fun fb => [.unlink fb.1, .rename fb.2 fb.1]

/-- What a run depends on. -/
structure ConvWorld where
  /-- `FilePolicy(policy_path=POLICYPATH).rules` -/
  rulesOf : ConvDisk → Except Err (List LRule)
  /-- `NoCompatPolicy(policy_path=POLICYPATH).rules` -/
  newRulesOf : ConvDisk → Except Err (List LRule)
  /-- the lines `qrexec-policy-graph --full-output` writes -/
  graphOf : ConvDisk → Except Err (List Str)
  /-- the order in which a set of services is iterated -/
  order : List (Option Str) → List (Option Str)
  /-- the names `POLICYPATH_OLD.iterdir()` yields -/
  listing : ConvDisk → List Str
  /-- what the user answers -/
  answer : Str

/-- How a run ends. -/
inductive ConvEnd where
  /-- "Successfully converted old policy to new format."; whether the user was asked before -/
  | success (asked : Bool)
  /-- "Conversion reverted.", exit code 1 -/
  | reverted
  | raised
  deriving DecidableEq, Repr

/-- `set(a) == set(b)`. -/
def sameSet (a b : List Str) : Bool := a.all (fun x => b.contains x) && b.all (fun x => a.contains x)

/-- The operations up to line 303 of qrexec_legacy_convert.py, and `backups_made`. -/
def convertPlan (w : ConvWorld) (d : ConvDisk) (all new : List LRule) : List ConvOp × List (ConvPath × ConvPath) :=
  let legacy := legacyRules all new
  let services := w.order (legacy.map fun r => r.rule.service)
  let save := savePlan (rulesToSave services legacy new) d convFiles
  let d1 := (d.runAll save.1).1
  let ren := renamePlan d1 (w.listing d1)
  (save.1 ++ ren.1, save.2 ++ ren.2)

/-- qrexec_legacy_convert.py:193-335 `main`: the operations it does (up to one that fails), and how it ends.  With
`current_state = "ERROR"` line 325 raises `AttributeError`. -/
def convertMain (w : ConvWorld) (d : ConvDisk) : List ConvOp × ConvEnd :=
  match w.graphOf d, w.rulesOf d, w.newRulesOf d with
  | .ok initial, .ok all, .ok new =>
    let plan := convertPlan w d all new
    let d1 := (d.runAll plan.1).1
    match w.graphOf d1 with
    | .error _ => (plan.1, .raised)
    | .ok current =>
      if sameSet initial current then (plan.1, .success false)
      else if w.answer.map Char.toUpper == c!"N" then (plan.1, .success true)
      else (plan.1 ++ revertOps plan.2, if (d1.runAll (revertOps plan.2)).2 then .reverted else .raised)
  | _, _, _ => ([], .raised)

end Qrexec
