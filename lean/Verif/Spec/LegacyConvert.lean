import Verif.Model.LegacyConvert

/-!
# Converting the legacy policy: what is claimed
-/
namespace Qrexec.Spec

/-- What may be on the disk if the machine stops while the operation is executed: a copy or a write may have written only
the beginning of the text; a renaming or a removal is atomic. -/
inductive Torn (d : ConvDisk) : ConvOp → ConvDisk → Prop
  | copy {src dst t u} : d.get src = some (t ++ u) → Torn d (.copy src dst) (d.set dst t)
  | write {p t u} : Torn d (.write p (t ++ u)) (d.set p t)

/-- The disks at which a run that does these operations may stop. -/
inductive CrashState : ConvDisk → List ConvOp → ConvDisk → Prop
  | here {d ops} : CrashState d ops d
  | torn {d op ops d'} : Torn d op d' → CrashState d (op :: ops) d'
  | step {d op ops d1 d'} : d.run op = some d1 → CrashState d1 ops d' → CrashState d (op :: ops) d'

/-- The name with some copies of ".bak" (in the new directory) or ".rpmsave" (in the old one) behind. -/
inductive BackupOf : ConvPath → ConvPath → Prop
  | bak (name : Str) (k : Nat) : BackupOf (.new, name) (.new, name ++ (List.replicate (k + 1) c!".bak").flatten)
  | rpmsave (name : Str) (k : Nat) : BackupOf (.old, name) (.old, name ++ (List.replicate (k + 1) c!".rpmsave").flatten)

/-- The files the conversion changes: eight files of the new directory, and the files of the old one that are not backups
already. -/
def Converted (p : ConvPath) : Prop :=
  (p.1 = .new ∧ p.2 ∈ [c!"30-user.policy", c!"50-config-clipboard.policy", c!"50-config-filecopy.policy",
    c!"50-config-updates.policy", c!"50-config-openinvm.policy", c!"50-config-openurl.policy", c!"50-config-input.policy",
    c!"50-config-u2f.policy"]) ∨
  (p.1 = .old ∧ ¬ ∃ n, p.2 = n ++ c!".rpmsave")

/-- Every text is where it was; or, if it was in one of the files to convert, in a backup whose name was free. -/
def Kept (d d' : ConvDisk) : Prop :=
  ∀ p t, d.get p = some t → d'.get p = some t ∨
    (Converted p ∧ ∃ b, BackupOf p b ∧ d.get b = none ∧ d'.get b = some t)

/-- The listing of the old directory. -/
def Lists (d : ConvDisk) (names : List Str) : Prop :=
  names.Nodup ∧ ∀ n, n ∈ names ↔ (d.get (.old, n)).isSome = true

/-- The rule stands only in the old files: it has a line, and no new rule is on that line. -/
def OnlyLegacy (all new : List LRule) (r : LRule) : Prop :=
  r ∈ all ∧ (∃ n, r.lineno = some (n + 1)) ∧ ∀ q ∈ new, ¬ (q.rule.filepath = r.rule.filepath ∧ q.lineno = r.lineno)

/-- A denial of every call of the service, whatever the argument. -/
def CatchAll (r : LRule) : Prop :=
  (∃ n, r.rule.action = .deny n) ∧ r.rule.source.str = c!"@anyvm" ∧ r.rule.target.str = c!"@anyvm" ∧
    (r.rule.argument = none ∨ r.rule.argument = some [])

/-- The files a rule of a service may be written to. -/
def FileFor (service : Option Str) (file : Str) : Prop :=
  file = c!"30-user" ∨
  (service = some c!"qubes.ClipboardPaste" ∧ file = c!"50-config-clipboard") ∨
  (service = some c!"qubes.Filecopy" ∧ file = c!"50-config-filecopy") ∨
  (service = some c!"qubes.UpdatesProxy" ∧ file = c!"50-config-updates") ∨
  (service = some c!"qubes.OpenInVM" ∧ file = c!"50-config-openinvm") ∨
  (service = some c!"qubes.OpenURL" ∧ file = c!"50-config-openurl") ∨
  ((service = some c!"qubes.InputKeyboard" ∨ service = some c!"qubes.InputMouse" ∨ service = some c!"qubes.InputTablet") ∧
    file = c!"50-config-input") ∨
  ((service = some c!"u2f.Authenticate" ∨ service = some c!"u2f.Register" ∨ service = some c!"policy.RegisterArgument") ∧
    file = c!"50-config-u2f")

/-- The rule was read from a file of the old format for a service. -/
def FromLegacy (r : Rule) : Prop :=
  (∃ s, s ≠ [] ∧ r.service = some s) ∧
  ∃ service argument line path, ruleFromLineService service argument line path = .ok r

/-- The action without the parameters that are not printed: `notify` and `autostart` get their defaults, and an empty `user`
is none. -/
def printedAction : Action → Action
  | .deny _ => .deny true
  | .allow t u _ _ => .allow t (if u = some [] then none else u) false true
  | .ask t d u _ _ => .ask t d (if u = some [] then none else u) false true

/-- The rule as it is after the conversion. -/
def convertedRule (path : List Str) (r : Rule) : Rule :=
  ⟨r.service, r.argument, r.source, r.target, printedAction r.action, path⟩

/-- `services` are the services of the rules, each once, in any order. -/
def ServicesOf (rules : List LRule) (services : List (Option Str)) : Prop :=
  services.Nodup ∧ ∀ s, s ∈ services ↔ ∃ r ∈ rules, r.rule.service = s

/-- A name that does not stand for one qube: `@…` or `*`. -/
def Keyword (t : Token) : Prop := (∃ s, t.str = '@' :: s) ∨ t.str = c!"*"

/-- A name of dom0. -/
def NamesDom0 (s : Str) : Prop := s = c!"dom0" ∨ s = c!"@adminvm"

/-- The qube the call is sent to (or, for a question, that is offered first) is dom0, if the action names one. -/
def ToDom0 : Action → Prop
  | .deny _ => True
  | .allow t _ _ _ => ∀ x, t = some x → NamesDom0 x.str
  | .ask t d _ _ _ => (∀ x, t = some x → NamesDom0 x.str) ∧ (t = none → ∀ x, d = some x → NamesDom0 x.str)

/-- The rules the configuration tool can show, as far as the conversion can tell. (For qubes.OpenInVM this means: with any
parameter.) -/
def ToolRule (r : Rule) : Prop :=
  (r.service = some c!"qubes.ClipboardPaste" ∧ (r.action.print = c!"ask" ∨ r.action.print = c!"deny")) ∨
  (r.service = some c!"qubes.Filecopy" ∧
    (r.action.print = c!"ask" ∨ r.action.print = c!"deny" ∨ r.action.print = c!"allow")) ∨
  (r.service = some c!"qubes.UpdatesProxy" ∧
    (Keyword r.source → r.source.str = c!"@type:TemplateVM" ∨ r.source.str = c!"@tag:whonix-updatevm") ∧
    (∃ a b, r.action.print = a ++ c!"allow" ++ b) ∧
    (Keyword r.target → r.target.str = c!"@adminvm" ∨ r.target.str = c!"@default")) ∨
  ((r.service = some c!"qubes.OpenInVM" ∨ r.service = some c!"qubes.OpenURL") ∧ r.target.str = c!"@dispvm" ∧
    r.action.print ≠ c!"ask" ∧ r.action.print ≠ c!"allow") ∨
  (r.service = some c!"policy.RegisterArgument" ∧ r.argument = some c!"+u2f.Authenticate") ∨
  ((r.service = some c!"u2f.Authenticate" ∨ r.service = some c!"u2f.Register") ∧
    (Keyword r.target → r.target.str = c!"@adminvm") ∧ (r.argument = none ∨ r.argument = some [])) ∨
  ((r.service = some c!"qubes.InputKeyboard" ∨ r.service = some c!"qubes.InputMouse" ∨
      r.service = some c!"qubes.InputTablet") ∧
    NamesDom0 r.target.str ∧ ¬ Keyword r.source ∧ ToDom0 r.action)

end Qrexec.Spec
