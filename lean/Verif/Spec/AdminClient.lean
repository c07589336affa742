import Verif.Model.AdminClient
import Verif.Spec.Admin
import Verif.Spec.Client
import Verif.Spec.ServiceCmd

/-!
# Specification: the client of the policy admin API
-/
namespace Qrexec.Spec
open Qrexec

/-- What is assumed of UTF-8: `decode` is the inverse of `enc`, text is encoded character by character, ASCII characters
as themselves and any other character as bytes outside ASCII. -/
structure Utf8 (h : Host) (enc : Str → Bytes) : Prop where
  decode_iff : ∀ b s, h.decode b = some s ↔ enc s = b
  append : ∀ s t, enc (s ++ t) = enc s ++ enc t
  ascii : ∀ ch : Char, ch.toNat < 128 → enc [ch] = [ch]
  other : ∀ ch : Char, 128 ≤ ch.toNat → ∀ b ∈ enc [ch], 128 ≤ b.toNat

/-- SHA-256 digests are written in hexadecimal. -/
def HexHash (h : Host) : Prop := ∀ b, ∀ ch ∈ h.hash b, ch ∈ c!"0123456789abcdef"

/-- The exception of the client for an error of the server. `text` is what the server writes for an internal error. -/
inductive ClientShows (msg : AdminErr → Str) (text : Bytes) : AdminErr → ClientErr → Prop
  | token : ClientShows msg text .token (.admin c!"PolicyAdminTokenException" (msg .token))
  | notFound : ClientShows msg text .notFound (.admin c!"PolicyAdminFileNotFoundException" (msg .notFound))
  | protocol : ClientShows msg text .protocol (.admin c!"PolicyAdminProtocolException" (msg .protocol))
  | syntax : ClientShows msg text .syntax (.admin c!"PolicyAdminSyntaxException" (msg .syntax))
  | fileName : ClientShows msg text .fileName (.admin c!"PolicyAdminInvalidFileNameException" (msg .fileName))
  | filePath : ClientShows msg text .filePath (.admin c!"PolicyAdminInvalidFilePathException" (msg .filePath))
  | internal (e : Err) : ClientShows msg text (.internal e) (.failed 2 text)
  | died : ClientShows msg text .died (.failed 2 text)

/-- What the server writes for an internal error. -/
def internalText (enc : Str → Bytes) (log : Str) : Bytes := enc (c!"Internal error. See " ++ log ++ c!" in dom0 for details.")

/-- The name of a service as called: with `+` and the argument if there is one. -/
def calledName (rpc : Str) : Option Str → Str
  | some a => rpc ++ c!"+" ++ a
  | none => rpc

/-- The command for the service `rpc` with the argument, wherever it is executed, has the effect and the outcome of the
server running for `rpc` or `rpc+arg`. -/
def Carried (inDom0 : Option Bool) (run : Disk → List Str → Bytes → Disk × ProcEnd)
    (server : Disk → Str → Bytes → Disk × ProcEnd) (rpc : Str) (arg : Option Str) : Prop :=
  ∃ cmd, makeCommand inDom0 c!"dom0" rpc arg = .ok cmd ∧ (∀ w ∈ cmd, '\x00' ∉ w) ∧
    ∀ d input, run d cmd input = server d (calledName rpc arg) input

/-- Whether the calls for an area carry `is_include`. -/
def Area.isInclude : Area → Bool
  | .policy => false
  | .incl => true

end Qrexec.Spec
