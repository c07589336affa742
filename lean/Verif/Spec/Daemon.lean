import Verif.Model.PolicyDaemon

/-!
# The policy daemon: specification
-/
namespace Qrexec.Spec

/-- The text of a request: one line `key=value` per field. -/
def fieldsText (fs : List (Str × Str)) : Wire := fs.flatMap fun f => f.1 ++ '=' :: (f.2 ++ c!"\n")

/-- `input` is the request `fs`: all its lines, then an empty line and anything after it, or the
end of the stream; in the latter case the last newline may be missing. -/
def Sends (input : Wire) (fs : List (Str × Str)) : Prop :=
  (∃ rest, input = fieldsText fs ++ '\n' :: rest) ∨ input = fieldsText fs ∨
    input ++ c!"\n" = fieldsText fs

/-- The value of a field; the empty string if it is not there. -/
def value (fs : List (Str × Str)) (key : Str) : Str :=
  ((fs.find? fun f => f.1 = key).map (·.2)).getD []

/-- A well-formed request. -/
structure ValidRequest (fs : List (Str × Str)) : Prop where
  /-- at most once each -/
  once : (fs.map (·.1)).Nodup
  known : ∀ f ∈ fs, f.1 ∈ [c!"source", c!"intended_target", c!"service_and_arg",
    c!"assume_yes_for_ask", c!"just_evaluate", c!"requested_source"]
  mandatory : ∀ k ∈ [c!"source", c!"intended_target", c!"service_and_arg"], k ∈ fs.map (·.1)
  boolean : ∀ f ∈ fs, f.1 = c!"assume_yes_for_ask" ∨ f.1 = c!"just_evaluate" →
    f.2 = c!"yes" ∨ f.2 = c!"no"
  text : ∀ f ∈ fs, (∀ c ∈ f.2, c.toNat < 128) ∧ '\n' ∉ f.2
  short : ∀ f ∈ fs, f.1.length + 1 + f.2.length ≤ 65536

/-- A qube name as accepted by the evaluation services. -/
def NameText (s : Str) : Prop :=
  ∀ c ∈ s, c ∈ c!"abcdefghijklmnopqrstuvwxyzABCDEFGHIJKLMNOPQRSTUVWXYZ0123456789_-.@"

/-- A request for an evaluation service, as the bytes on its socket: the service descriptor
`service+queried`, the caller, then the two names separated by NUL, the second one ended by the end
of the stream.  Only the first 96 bytes after the caller are read. -/
def EvalQuery (input : Wire) (service queried caller source target : Str) : Prop :=
  ∃ metadata data, input = service ++ '+' :: queried ++ ' ' :: metadata ++ '\x00' :: data ∧
    '+' ∉ service ∧ ' ' ∉ service ∧ ' ' ∉ queried ∧ '\x00' ∉ metadata ∧ ' ' ∉ caller ∧
    (metadata = caller ∨ ∃ more, metadata = caller ++ ' ' :: more) ∧
    data.take 96 = source ++ '\x00' :: target ∧ '\x00' ∉ source

end Qrexec.Spec
