import Verif.Model.Token

/-!
# Specification: which tokens each policy column accepts

From doc/qrexec-policy.rst and the class table of parser.py: the keywords, and the columns
they may be used in.
-/
namespace Qrexec.Spec
open Qrexec

/-- A value after a prefix keyword: not empty, not itself a keyword. -/
def PlainValue (v : Str) : Prop := v ≠ [] ∧ v.head? ≠ some '@'

/-- `TokenText ctx s t`: the text `s` is a legal token of column `ctx` and means `t`. -/
inductive TokenText : Ctx → Str → Token → Prop
  | name {ctx s} : PlainValue s → s ≠ c!"*" → TokenText ctx s (.name s)
  | wildcard {ctx} : ctx = .source ∨ ctx = .target → TokenText ctx c!"*" .wildcard
  | adminvm {ctx} : TokenText ctx c!"@adminvm" .adminvm
  | anyvm {ctx} : ctx = .source ∨ ctx = .target → TokenText ctx c!"@anyvm" .anyvm
  | default {ctx} : ctx = .target ∨ ctx = .intended → TokenText ctx c!"@default" .default
  | dispvm {ctx} : ctx ≠ .source → TokenText ctx c!"@dispvm" .dispvm
  | typeVM {ctx v} : ctx = .source ∨ ctx = .target → PlainValue v →
      TokenText ctx (c!"@type:" ++ v) (.typeVM v)
  | tagVM {ctx v} : ctx = .source ∨ ctx = .target → PlainValue v →
      TokenText ctx (c!"@tag:" ++ v) (.tagVM v)
  | dispvmTemplate {ctx v} : PlainValue v → TokenText ctx (c!"@dispvm:" ++ v) (.dispvmTemplate v)
  | dispvmTag {ctx v} : ctx = .source ∨ ctx = .target → PlainValue v →
      TokenText ctx (c!"@dispvm:@tag:" ++ v) (.dispvmTag v)

end Qrexec.Spec
