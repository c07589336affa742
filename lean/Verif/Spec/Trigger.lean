import Verif.Model.Trigger
import Verif.Spec.Daemon

/-!
# Specification of trigger messages
-/
namespace Qrexec.Spec

/-- Characters of names. -/
def plainChars : List Char :=
  c!"abcdefghijklmnopqrstuvwxyzABCDEFGHIJKLMNOPQRSTUVWXYZ0123456789_-."

/-- A byte sent by a qube, as passed on: unchanged if permitted, `_` otherwise. -/
def cleanByte (extra : List Char) (c : Char) : Char :=
  if c ∈ plainChars ∨ c ∈ extra then c else '_'

/-- `s` is what the fixed-size field `buf` says: the bytes before the first NUL byte, and if there is
none all but the last byte. -/
def FieldText (buf s : Wire) : Prop :=
  '\x00' ∉ s ∧ ((∃ rest, buf = s ++ '\x00' :: rest) ∨ ∃ c, c ≠ '\x00' ∧ buf = s ++ [c])

/-- A request identifier: permitted characters, then NUL bytes only, at least one. -/
def IdentText (ident : Wire) : Prop :=
  ∃ name k, ident = name ++ List.replicate (k + 1) '\x00' ∧ ∀ c ∈ name, c ∈ plainChars ∨ c = ' '

/-- The message of the given kind has the fields `source`, `target`, `service` and `ident` (as they
are, not cleaned). -/
inductive Layout : Nat → Wire → Option Wire → Wire → Wire → Wire → Prop
  | v2 {sbuf tbuf ident service target} : sbuf.length = 64 → tbuf.length = 32 → ident.length = 32 →
      FieldText sbuf service → FieldText tbuf target →
      Layout 2 (sbuf ++ tbuf ++ ident) none target service ident
  | v3 {tbuf ident service target} : tbuf.length = 64 → ident.length = 32 → FieldText tbuf target →
      '\x00' ∉ service → service.length < 65000 →
      Layout 3 (tbuf ++ ident ++ (service ++ c!"\x00")) none target service ident
  | v4 {rbuf tbuf ident service target source} : rbuf.length = 64 → tbuf.length = 64 →
      ident.length = 32 → FieldText rbuf source → FieldText tbuf target →
      '\x00' ∉ service → service.length < 65000 →
      Layout 4 (rbuf ++ tbuf ++ ident ++ (service ++ c!"\x00")) (some source) target service ident

/-- The protocol version may use this kind of message. -/
def ProtoOk (proto kind : Nat) : Prop :=
  (kind = 2 ∧ proto < 3) ∨ (kind = 3 ∧ 3 ≤ proto) ∨ (kind = 4 ∧ 4 ≤ proto)

/-- The fields of the request sent to the policy daemon. -/
def requestFields (remote : Str) (rs : Option Str) (target service : Str) : List (Str × Str) :=
  [(c!"source", remote)] ++ (match rs with | some s => [(c!"requested_source", s)] | none => []) ++
  [(c!"intended_target", target), (c!"service_and_arg", service)]

end Qrexec.Spec
