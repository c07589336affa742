import Verif.Model.ClientVm

/-!
# Specification of command line options
-/
namespace Qrexec.Spec
open Qrexec

/-- Digits with their values, in both cases. -/
def digitTable : List (Char × Nat) :=
  [('0', 0), ('1', 1), ('2', 2), ('3', 3), ('4', 4), ('5', 5), ('6', 6), ('7', 7), ('8', 8), ('9', 9),
   ('a', 10), ('b', 11), ('c', 12), ('d', 13), ('e', 14), ('f', 15),
   ('A', 10), ('B', 11), ('C', 12), ('D', 13), ('E', 14), ('F', 15)]

/-- The digits write this number in this base. -/
inductive Numeral (base : Nat) : Str → Nat → Prop
  | nil : Numeral base [] 0
  | snoc {s n c v} : Numeral base s n → (c, v) ∈ digitTable → v < base → Numeral base (s ++ [c]) (n * base + v)

/-- An integer as in C, without sign and suffix: decimal without leading zero, octal with leading zero, hexadecimal with
`0x`. -/
inductive CInteger : Str → Nat → Prop
  | dec {c s n} : c ≠ '0' → Numeral 10 (c :: s) n → CInteger (c :: s) n
  | oct {s n} : Numeral 8 s n → CInteger ('0' :: s) n
  | hex {x s n} : x = 'x' ∨ x = 'X' → s ≠ [] → Numeral 16 s n → CInteger ('0' :: x :: s) n

/-- What the options say about a stream: the last option for it counts. -/
def said (on off : CvOpt) : List CvOpt → Option Bool
  | [] => none
  | o :: os => match said on off os with
    | some b => some b
    | none => if o = on then some true else if o = off then some false else none

/-- The values given with `-s` and with `-p`. -/
def sourcesOf (os : List CvOpt) : List Str := os.filterMap fun o => match o with | .source s => some s | _ => none
def prefixesOf (os : List CvOpt) : List Str := os.filterMap fun o => match o with | .prefixData s => some s | _ => none

/-- The values given with `--buffer-size` and with `--agent-socket`. -/
def sizesOf (os : List CvOpt) : List Str := os.filterMap fun o => match o with | .bufferSize s => some s | _ => none
def socketsOf (os : List CvOpt) : List Str := os.filterMap fun o => match o with | .agentSocket s => some s | _ => none

/-- The options make sense: none is unknown, `-s`, `-p` and `--use-stdin-socket` come at most once, the last only if stdin is
a stream socket, and buffer sizes are numbers. -/
def OptionsOk (stdinStream : Bool) (os : List CvOpt) : Prop :=
  .help ∉ os ∧ .bad ∉ os ∧ (∀ s, .bufferSize s ∈ os → ∃ n, CInteger s n ∧ n ≤ 2147483647) ∧
  (sourcesOf os).length ≤ 1 ∧ (prefixesOf os).length ≤ 1 ∧ os.count .useStdinSocket ≤ 1 ∧
  (.useStdinSocket ∈ os → stdinStream = true)

end Qrexec.Spec
