import Verif.Model.Agent

/-!
# Specification of the question window
-/
namespace Qrexec.Spec
open Qrexec

/-- The time that passes during some events. -/
def elapsed : List GuiEvent → Nat
  | [] => 0
  | .tick ms :: es => ms + elapsed es
  | _ :: es => elapsed es

/-- After these events the window has the focus, and has had it for at least `ms` milliseconds since it gained it. -/
def FocusedFor (ms : Nat) (evs : List GuiEvent) : Prop :=
  ∃ before after, evs = before ++ .focus true :: after ∧ (∀ b, .focus b ∉ after) ∧ ms ≤ elapsed after

/-- The name under which a target is shown. -/
inductive NamedAs : Str → Str → Prop
  | disposable (v : Str) : NamedAs (c!"@dispvm:" ++ v) (c!"Disposable VM (" ++ v ++ c!")")
  | qube (t : Str) : ¬ c!"@dispvm:" <+: t → NamedAs t t

/-! ## Markup: the fragment of Pango's language that is used -/

def entities : List (Str × Char) :=
  [(c!"amp", '&'), (c!"lt", '<'), (c!"gt", '>'), (c!"apos", '\''), (c!"quot", '"')]

def hexValue (c : Char) : Option Nat :=
  if '0' ≤ c ∧ c ≤ '9' then some (c.toNat - 48)
  else if 'a' ≤ c ∧ c ≤ 'f' then some (c.toNat - 87)
  else if 'A' ≤ c ∧ c ≤ 'F' then some (c.toNat - 55)
  else none

/-- The number written in hexadecimal digits behind the number `n`. -/
def hexNumber : Nat → Str → Option Nat
  | n, [] => some n
  | n, c :: cs => (hexValue c).bind fun d => hexNumber (16 * n + d) cs

/-- `PlainText s t`: the markup `s` has no tags and shows the text `t`. -/
inductive PlainText : Str → Str → Prop
  | nil : PlainText [] []
  | char {c s t} : c ≠ '&' → c ≠ '<' → c ≠ '>' → PlainText s t → PlainText (c :: s) (c :: t)
  | entity {n c s t} : (n, c) ∈ entities → PlainText s t → PlainText (c!"&" ++ n ++ c!";" ++ s) (c :: t)
  | number {h n s t} : h ≠ [] → hexNumber 0 h = some n → PlainText s t →
      PlainText (c!"&#x" ++ h ++ c!";" ++ s) (Char.ofNat n :: t)

/-- `Shows s out`: the markup `s` shows the characters of `out`, those marked `true` in bold. -/
inductive Shows : Str → List (Char × Bool) → Prop
  | text {s t} : PlainText s t → Shows s (t.map fun c => (c, false))
  | bold {s t b u r out} : PlainText s t → PlainText b u → Shows r out →
      Shows (s ++ c!"<b>" ++ b ++ c!"</b>" ++ r) ((t.map fun c => (c, false)) ++ (u.map fun c => (c, true)) ++ out)

def plain (s : Str) : List (Char × Bool) := s.map fun c => (c, false)
def strong (s : Str) : List (Char × Bool) := s.map fun c => (c, true)

end Qrexec.Spec

namespace Qrexec.Spec
open Qrexec

/-- `t` is one of the offered targets and can be chosen by the name `s`. -/
def NameOf (p : Question) (t s : Str) : Prop := t ∈ p.targets ∧ t ∈ p.icons ∧ NamedAs t s ∧ s ≠ []

/-- The target that is chosen by the selected entry of the combo box and the text in its field: the selected one, or - if
nothing valid is selected - the one whose name was typed. -/
def ChosenTarget (p : Question) (selected : Option Str) (typed t : Str) : Prop :=
  (∃ s, selected = some s ∧ NameOf p t s) ∨ (NameOf p t typed ∧ ∀ s t', selected = some s → ¬ NameOf p t' s)

end Qrexec.Spec
