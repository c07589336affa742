import Verif.Model.Loader

/-!
# The policy files that are shipped (policy.d)

The lines of the files as they are in the repository. The text of a file is its lines joined by newlines; the last line is empty
because the files end with a newline.
-/
namespace Qrexec

/-- A text with these lines. -/
def joinLines : List Str → Str
  | [] => []
  | [l] => l
  | l :: ls => l ++ '\n' :: joinLines ls

/-- policy.d/90-admin-policy-default.policy:1-25, all of it. -/
def shippedAdmin : List Str := [
  c!"## Do not modify this file, create a new policy file with a lower number in the",
  c!"## filename instead. For example `30-admin-policy.policy`.",
  c!"",
  c!"###",
  c!"### Policy Admin API qrexec policy",
  c!"###",
  c!"",
  c!"## WARNING: the services here allow viewing and changing the Qubes RPC policy,",
  c!"## which effectively gives the caller full control over the system. You should",
  c!"## allow them only to trusted qubes.",
  c!"",
  c!"## For convenience of maintaining this policy, all services include one of:",
  c!"##  - include/admin-policy-rwx (services to modify the policy)",
  c!"##  - include/admin-policy-ro (services to read the policy)",
  c!"",
  c!"!include-service policy.List             *  include/admin-policy-ro",
  c!"!include-service policy.include.List     *  include/admin-policy-ro",
  c!"!include-service policy.Get              *  include/admin-policy-ro",
  c!"!include-service policy.include.Get      *  include/admin-policy-ro",
  c!"!include-service policy.GetFiles         *  include/admin-policy-ro",
  c!"",
  c!"!include-service policy.Replace          *  include/admin-policy-rwx",
  c!"!include-service policy.include.Replace  *  include/admin-policy-rwx",
  c!"!include-service policy.Remove           *  include/admin-policy-rwx",
  c!"!include-service policy.include.Remove   *  include/admin-policy-rwx",
  c!""]

/-- policy.d/35-compat.policy:1-16, all of it. -/
def shippedCompat : List Str := [
  c!"#",
  c!"# NOTE:",
  c!"#",
  c!"# The following line enables compatibility mode. It reads files in old directory",
  c!"# (/etc/qubes-rpc/policy). It also generates deny rules that were previously",
  c!"# implicit after each file, but they are added only after policies for specific",
  c!"# arguments, that is, for files with '+' in the name. For generic files, without",
  c!"# '+', no such rules are generated and the control \"falls through\", which is",
  c!"# a departure from previous semantics. It is done that way not to shadow the",
  c!"# default rules.",
  c!"#",
  c!"# The \"!compat-4.0\" directive is transitional only and will be unavailable in",
  c!"# next major release (R5.0). This file will be removed in that release also.",
  c!"#",
  c!"",
  c!"!compat-4.0",
  c!""]

/-- policy.d/include/admin-policy-ro, all of it. -/
def shippedRo : List Str := [
  c!"## This file controls policy for read-only policy API, i.e. services that allow",
  c!"## reading Qubes RPC policy.",
  c!"",
  c!"## Note that policy parsing stops at the first match.",
  c!"",
  c!"## Please use a single # to start your custom comments",
  c!"",
  c!"## Include all already having write access",
  c!"!include include/admin-policy-rwx",
  c!"",
  c!"## Add your entries here",
  c!"",
  c!""]

/-- policy.d/include/admin-policy-rwx, all of it. -/
def shippedRwx : List Str := [
  c!"## This file controls policy for read-write policy API, i.e. services that",
  c!"## allow reading and modifying Qubes RPC policy.",
  c!"",
  c!"## Note that policy parsing stops at the first match.",
  c!"",
  c!"## Please use a single # to start your custom comments",
  c!"",
  c!"## Add your entries here",
  c!"",
  c!""]

end Qrexec
