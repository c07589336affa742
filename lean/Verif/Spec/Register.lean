import Verif.Model.Register
import Verif.Spec.Admin

/-!
# Specification of `policy.RegisterArgument`
-/
namespace Qrexec.Spec
open Qrexec

/-- An argument that may be registered: 1 to 64 of the characters `A-Z a-z 0-9 - . _`. -/
def ValidArgument (a : Bytes) : Prop :=
  1 ≤ a.length ∧ a.length ≤ 64 ∧
    ∀ c ∈ a, c ∈ c!"ABCDEFGHIJKLMNOPQRSTUVWXYZabcdefghijklmnopqrstuvwxyz0123456789-._"

/-- The file the registered arguments are in. -/
def registeredFile (c : RegConf) (d : Disk) : Path :=
  d.resolve (c.policy ++ [c!"60-registered-arguments.policy"])

/-- A call as the daemon makes it: the caller `backend`, the requested target `frontend` and the
service argument `service`, none of them with white space. -/
structure Registration where
  backend : Str
  frontend : Str
  service : Str
  argument : Bytes

/-- Its environment and standard input. -/
def Registration.call (r : Registration) : RegCall :=
  ⟨some r.backend, some r.frontend, some r.service, r.argument⟩

/-- The line it adds. -/
def Registration.line (r : Registration) : Str :=
  r.service ++ c!" +" ++ r.argument ++ c!" " ++ r.frontend ++ c!" " ++ r.backend ++ c!" allow\n"

/-- ASCII and no white space. -/
def PlainWord (w : Str) : Prop := w ≠ [] ∧ ∀ c ∈ w, c.toNat < 128 ∧ isSpace c = false

/-- What the rest of the system guarantees of a call: the service argument has passed the check of
service names, and the qube names are words. -/
structure Registration.Plain (r : Registration) : Prop where
  service : r.service ≠ [] ∧ ∀ c ∈ r.service, NameChar c
  backend : PlainWord r.backend
  frontend : PlainWord r.frontend

/-- Decoding agrees with ASCII (as UTF-8 does). -/
structure AsciiHost (h : Host) : Prop where
  empty : h.decode [] = some []
  append : ∀ a t b, h.decode a = some t → (∀ c ∈ b, c.toNat < 128) → h.decode (a ++ b) = some (t ++ b)

/-- A disk on which registration works: directories list no name twice, the file of registered
arguments is not a symbolic link, nothing in the runtime directory hides it, and if it exists it is
listed and its text is empty or ends with a newline. -/
structure RegisterReady (h : Host) (c : RegConf) (d : Disk) : Prop where
  distinct : ∀ p ns, d.entries p = some ns → ns.Nodup
  noLink : registeredFile c d = d.resolve c.policy ++ [c!"60-registered-arguments.policy"]
  apart : d.resolve c.runtime ≠ d.resolve c.policy
  notHidden : ∀ ns, d.entries (d.resolve c.runtime) = some ns →
    c!"60-registered-arguments.policy" ∉ ns
  listed : ∀ ns, d.content (registeredFile c d) ≠ none →
    d.entries (d.resolve c.policy) = some ns → c!"60-registered-arguments.policy" ∈ ns
  text : ∀ b, d.content (registeredFile c d) = some b →
    ∃ t, h.decode b = some t ∧ (t = [] ∨ ∃ u, t = u ++ ['\n'])

/-- A program that leaves the file of registered arguments and the runtime directory alone. -/
def Leaves (c : RegConf) (d0 : Disk) (p : Prog) : Prop :=
  ∀ d reply ws, d.resolve = d0.resolve → p d = .ok (reply, ws) → ∀ w ∈ ws, ∀ q,
    (match w with
      | .create x => q = x
      | .append x _ => q = x
      | .setOwner x => q = x
      | .rename x y => q = x ∨ q = y
      | .unlink x => q = x
      | .touch x => q = x
      | .appendText x _ => q = x) →
    q ≠ registeredFile c d0 ∧ q.dropLast ≠ d0.resolve c.runtime

end Qrexec.Spec
