import Verif.Model.Getopt

/-!
# Specification: command lines (getopt(3), POSIX utility syntax guidelines with long options)
-/
namespace Qrexec

/-- `n` names the long option with this value: its name, or a beginning of names that all mean this option. -/
def LongName (S : OptSpec) (n : Str) (hasArg : Bool) (v : Nat) : Prop :=
  (n, hasArg, v) ∈ S.longs ∨
  ((∀ l ∈ S.longs, l.1 ≠ n) ∧ (∃ l ∈ S.longs, n <+: l.1) ∧ ∀ l ∈ S.longs, n <+: l.1 → l.2 = (hasArg, v))

/-- Short options behind a dash, and the word that follows if the last one has it as argument. -/
inductive ShortText (S : OptSpec) : Str → List Str → List GoItem → Prop
  | last (c : Char) (h : (c, false) ∈ S.shorts) : ShortText S [c] [] [.opt c.toNat none]
  | joined (c : Char) (a : Str) (h : (c, true) ∈ S.shorts) (ha : a ≠ []) : ShortText S (c :: a) [] [.opt c.toNat (some a)]
  | next (c : Char) (a : Str) (h : (c, true) ∈ S.shorts) : ShortText S [c] [a] [.opt c.toNat (some a)]
  | more (c : Char) (s : Str) (ws : List Str) (is : List GoItem) (h : (c, false) ∈ S.shorts) (hs : ShortText S s ws is) :
      ShortText S (c :: s) ws (.opt c.toNat none :: is)

/-- A word of options, with the one behind it if that is an argument. -/
inductive OptText (S : OptSpec) : List Str → List GoItem → Prop
  | short (s : Str) (ws : List Str) (is : List GoItem) (h : ShortText S s ws is) (hd : s.head? ≠ some '-') :
      OptText S (('-' :: s) :: ws) is
  | long (n : Str) (v : Nat) (h : LongName S n false v) (hn : n ≠ []) (he : '=' ∉ n) : OptText S [c!"--" ++ n] [.opt v none]
  | longEq (n a : Str) (v : Nat) (h : LongName S n true v) (he : '=' ∉ n) : OptText S [c!"--" ++ n ++ '=' :: a] [.opt v (some a)]
  | longNext (n a : Str) (v : Nat) (h : LongName S n true v) (hn : n ≠ []) (he : '=' ∉ n) :
      OptText S [c!"--" ++ n, a] [.opt v (some a)]

/-- A word that is no option. -/
def PlainWord (w : Str) : Prop := w = c!"-" ∨ w.head? ≠ some '-'

/-- A command line with these options and arguments. -/
inductive CmdLine (S : OptSpec) (stop : Bool) : List Str → List GoItem → List Str → Prop
  | nil : CmdLine S stop [] [] []
  | dashes (args : List Str) : CmdLine S stop (c!"--" :: args) [] args
  | stop (w : Str) (ws : List Str) (hs : stop = true) (hw : PlainWord w) : CmdLine S stop (w :: ws) [] (w :: ws)
  | plain (w : Str) (ws : List Str) (is : List GoItem) (args : List Str) (hs : stop = false) (hw : PlainWord w)
      (h : CmdLine S stop ws is args) : CmdLine S stop (w :: ws) is (w :: args)
  | opt (ws rest : List Str) (is js : List GoItem) (args : List Str) (ho : OptText S ws is) (h : CmdLine S stop rest js args) :
      CmdLine S stop (ws ++ rest) (is ++ js) args

/-- The option with this value was given. -/
def Given (is : List GoItem) (v : Nat) : Prop := ∃ a, .opt v a ∈ is

/-- The argument it was given with for the last time. -/
def LastArg (is : List GoItem) (v : Nat) (a : Str) : Prop :=
  ∃ pre post, is = pre ++ .opt v (some a) :: post ∧ ¬ Given post v

/-- The last argument, or what holds without one. -/
def ArgOr (is : List GoItem) (v : Nat) (default a : Str) : Prop := LastArg is v a ∨ ¬ Given is v ∧ a = default

/-- The same for a value that may be missing. -/
def OptOr (is : List GoItem) (v : Nat) (default a : Option Str) : Prop :=
  (∃ b, a = some b ∧ LastArg is v b) ∨ ¬ Given is v ∧ a = default

/-- The place of the fork servers: the last of `-s` and `-S` counts. -/
def ForkOr (is : List GoItem) (default a : Option Str) : Prop :=
  (∃ pre post b, is = pre ++ .opt 's'.toNat (some b) :: post ∧ ¬ Given post 's'.toNat ∧ ¬ Given post 'S'.toNat ∧ a = some b) ∨
  (∃ pre post, is = pre ++ .opt 'S'.toNat none :: post ∧ ¬ Given post 's'.toNat ∧ ¬ Given post 'S'.toNat ∧ a = none) ∨
  (¬ Given is 's'.toNat ∧ ¬ Given is 'S'.toNat ∧ a = default)

end Qrexec
