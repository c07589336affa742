import Verif.Props.Match

/-! # C09, C10: classes, tags and disposables in the target column -/
namespace Qrexec
open Spec

/-- **C09.** `@type:T` matches exactly the existing domains of class `T`, `@tag:X` exactly the
existing domains with tag `X`; the answer never depends on anything else. -/
theorem C09_type_and_tag (info : Info) (source : Option Str) (v : Str) (o : Token) :
    ((Token.typeVM v).matches info source o = .ok true ↔
      ∃ d, info.get? o.str = some d ∧ d.cls = v) ∧
    ((Token.typeVM v).matches info source o = .ok false ↔
      ¬ ∃ d, info.get? o.str = some d ∧ d.cls = v) ∧
    ((Token.tagVM v).matches info source o = .ok true ↔
      ∃ d, info.get? o.str = some d ∧ v ∈ d.tags) ∧
    ((Token.tagVM v).matches info source o = .ok false ↔
      ¬ ∃ d, info.get? o.str = some d ∧ v ∈ d.tags) := by
  simp only [Token.matches]
  cases info.get? o.str with
  | none => simp
  | some d => simp [@eq_comm _ v d.cls]

/-- **C09.** Neither matches a keyword (`@default`, `@adminvm`, `@dispvm`, `@dispvm:T`) or a
domain that does not exist. -/
theorem C09_not_keywords (info : Info) (hn : OrdinaryNames info) (source : Option Str)
    (v : Str) (o : Token) (ho : o.str.head? = some '@' ∨ info.get? o.str = none) :
    (Token.typeVM v).matches info source o = .ok false ∧
    (Token.tagVM v).matches info source o = .ok false := by
  have : info.get? o.str = none := by
    rcases ho with ho | ho
    · cases h : info.get? o.str with
      | none => rfl
      | some d => exact absurd ho (hn _ _ h).2.1
    · exact ho
  simp [Token.matches, this]

example : (Token.tagVM c!"t2").matches exInfo (some c!"work") (.name c!"uuid:u2") = .ok true := by
  decide
example : (Token.tagVM c!"t2").matches exInfo (some c!"work") (.name c!"work") = .ok false := by
  decide

/-! ## C10 -/

/-- **C10.** A plain `@dispvm` rule matches plain `@dispvm` only. -/
theorem C10_plain_dispvm (info : Info) (source : Option Str) (o : Token)
    (ho : ∃ ctx s, TokenText ctx s o) :
    (Token.dispvm.matches info source o = .ok true ↔ o = .dispvm) ∧
    (Token.dispvm.matches info source o = .ok false ↔ o ≠ .dispvm) := by
  obtain ⟨ctx, s, h⟩ := ho
  simp only [Token.matches, Except.ok.injEq, beq_iff_eq, beq_eq_false_iff_ne]
  have key : c!"@dispvm" = o.str ↔ o = .dispvm := by
    cases h with
    | name h1 h2 =>
      simp only [Token.str, reduceCtorEq, iff_false]
      rintro rfl
      exact h1.2 rfl
    | _ => simp [Token.str]
  exact ⟨key, not_congr key⟩

/-- **C10 (part).** For a request that is not plain `@dispvm`, or whose source has an existing
default disposable template: a `@dispvm:T` rule matches exactly `@dispvm:T` (by name or UUID)
and plain `@dispvm` when `T` is the source's default; `@dispvm:@tag:X` exactly when the
requested or default template exists, is a template for disposables and carries the tag.
What is missing from C10: plain `@dispvm` from a source without default template, where the
code raises instead (`C10_violated_no_default`), and a `@dispvm:uuid:U` rule, which does not
match plain `@dispvm` although `U` is the default's UUID (`C10_violated_uuid`). -/
theorem C10_dispvm_rules_partial (req : Request) (hn : OrdinaryNames req.info)
    (hd : DispvmReady req) (ht : TargetExists req) (v : Str) :
    ((Token.dispvmTemplate v).matches req.info (some req.source) req.target = .ok true ↔
      (∃ w, req.target = .dispvmTemplate w ∧ SameDomain req.info v w) ∨
      (req.target = .dispvm ∧ DefaultDispvm req.info req.source v)) ∧
    ((Token.dispvmTag v).matches req.info (some req.source) req.target = .ok true ↔
      ∃ w d, (req.target = .dispvmTemplate w ∨
          (req.target = .dispvm ∧ DefaultDispvm req.info req.source w)) ∧
        req.info.get? w = some d ∧ d.templateForDispvms = true ∧ v ∈ d.tags) ∧
    (∃ b, (Token.dispvmTemplate v).matches req.info (some req.source) req.target = .ok b) ∧
    (∃ b, (Token.dispvmTag v).matches req.info (some req.source) req.target = .ok b) := by
  obtain ⟨b1, h1⟩ := matches_target_total hd ht (.dispvmTemplate v)
  obtain ⟨b2, h2⟩ := matches_target_total hd ht (.dispvmTag v)
  refine ⟨?_, ?_, ⟨b1, h1⟩, ⟨b2, h2⟩⟩
  · have := matches_ok_iff hn (Or.inl rfl) h1
    rw [h1, Except.ok.injEq, this]; rfl
  · have := matches_ok_iff hn (Or.inl rfl) h2
    rw [h2, Except.ok.injEq, this]; rfl

def exReq (source : Str) (target : Token) : Request :=
  { service := c!"svc", argument := c!"+", source, target, info := exInfo }

example : DispvmReady (exReq c!"work" .dispvm) ∧ TargetExists (exReq c!"work" .dispvm) ∧
    (Token.dispvmTag c!"web").matches exInfo (some c!"work") .dispvm = .ok true := by
  refine ⟨fun _ => ⟨c!"dvm", _, ⟨_, rfl, rfl⟩, by decide, by decide, rfl⟩, ?_, by decide⟩
  intro w hw; cases hw

/-- The code raises `AttributeError` for a `@dispvm:T` rule and a plain `@dispvm` request from
a source without a default disposable template (C10, C11). -/
theorem C10_violated_no_default :
    (Token.dispvmTemplate c!"dvm").matches exInfo (some c!"vault") .dispvm =
      .error .attributeError := by decide

/-- A rule naming the default template by UUID does not match plain `@dispvm`, although the
same rule with the name does. -/
theorem C10_violated_uuid :
    (Token.dispvmTemplate c!"uuid:u3").matches exInfo (some c!"work") .dispvm = .ok false ∧
    (Token.dispvmTemplate c!"dvm").matches exInfo (some c!"work") .dispvm = .ok true ∧
    SameDomain exInfo c!"dvm" c!"uuid:u3" := by
  refine ⟨by decide, by decide, ?_⟩
  rw [← matchStrings_iff]; decide

end Qrexec
