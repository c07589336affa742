import Verif.Lemmas.Grammar

/-! # C06: token grammar per column -/
namespace Qrexec
open Spec

/-- **C06.** A token text is accepted in a column exactly when the grammar of that column has
it, and then means what the grammar says. -/
theorem C06_token_grammar (ctx : Ctx) (s : Str) (t : Token) :
    parseToken ctx s = .ok t ↔ TokenText ctx s t := parseToken_ok_iff

/-- **C06.** Everything else is a policy syntax error, and no other exception. -/
theorem C06_only_syntax_errors (ctx : Ctx) (s : Str) :
    (∃ t, TokenText ctx s t) ∨ parseToken ctx s = .error .policySyntax := by
  cases h : parseToken ctx s with
  | ok t => exact Or.inl ⟨t, parseToken_ok h⟩
  | error e => rw [parseToken_error h]; exact Or.inr rfl

/-- **C06.** An accepted token still is the text that was written. -/
theorem C06_text_kept (ctx : Ctx) (s : Str) (t : Token) (h : parseToken ctx s = .ok t) :
    t.str = s := tokenText_str (parseToken_ok h)

example : TokenText .target c!"@dispvm:@tag:web" (.dispvmTag c!"web") :=
  .dispvmTag (Or.inr rfl) ⟨by decide, by decide⟩
example : parseToken .source c!"@default" = .error .policySyntax := by decide
example : parseToken .target c!"@dispvm:@type:x" = .error .policySyntax := by decide

end Qrexec
