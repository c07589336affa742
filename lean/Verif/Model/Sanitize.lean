import Verif.Model.SysInfo

/-!
# Name sanitizers
-/
namespace Qrexec

/-- `'a' <= c <= 'z'` and so on, common to both sanitizers. -/
def alnumChar (c : Char) : Bool :=
  ('a' ≤ c && c ≤ 'z') || ('A' ≤ c && c ≤ 'Z') || ('0' ≤ c && c ≤ '9')

/-- qrexec/utils.py:34-49 `_sanitize_char`. -/
def pySanitizeChar (extra : List Char) (c : Char) : Char :=
  if alnumChar c || [('@' : Char), '_', '-', '.'].contains c || extra.contains c then c else '_'

/-- qrexec/utils.py:58-72 `_sanitize_name`. -/
def pySanitizeName (input : Str) (extra : List Char) (assertSanitized : Bool) : Except Err Str :=
  let result := input.map (pySanitizeChar extra)
  if assertSanitized && !(input == result) then .error .valueError else .ok result

/-- qrexec/utils.py:75-78 `sanitize_domain_name`. -/
def sanitizeDomainName (input : Str) (assertSanitized : Bool := false) : Except Err Str :=
  pySanitizeName input [] assertSanitized

/-- qrexec/utils.py:81-84 `sanitize_service_name`. -/
def sanitizeServiceName (input : Str) (assertSanitized : Bool := false) : Except Err Str :=
  pySanitizeName input ['+'] assertSanitized

/-- daemon/qrexec-daemon.c:860-879 `sanitize_name`, one byte. -/
def cSanitizeChar (extra : List Char) (c : Char) : Char :=
  if alnumChar c then c
  else if c == '_' || c == '-' || c == '.' then c
  else if extra.contains c then c
  else '_'

/-- daemon/qrexec-daemon.c:860-879 `sanitize_name` on a buffer: every byte up to the first NUL
byte is sanitized, the rest of the buffer is not touched. -/
def cSanitizeBuf (extra : List Char) : List Char → List Char
  | [] => []
  | c :: cs => if c = '\x00' then c :: cs else cSanitizeChar extra c :: cSanitizeBuf extra cs

/-- The C string a buffer holds. -/
def cstr (buf : List Char) : Str := buf.takeWhile (· != '\x00')

end Qrexec
