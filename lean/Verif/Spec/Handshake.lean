import Verif.Model.Handshake

/-! What the statements about handshakes (C70) say, independently of how the handshake is carried out. -/
namespace Qrexec

/-- A HELLO message on the wire: type 0x300, length 4, the version. -/
def hello (v : Nat) : Str := u32le 0x300 ++ u32le 4 ++ u32le v

/-- The states two ends can get into, starting with nothing sent. -/
def HsReach (ea eb : HsEnd) (pa pb : List HsAct) (s : HsSys) : Prop :=
  HsSteps ea eb { a := hsInit pa, b := hsInit pb } s

/-- The end has finished the handshake and goes on. -/
def HsParty.ready (p : HsParty) : Prop := p.todo = [] ∧ p.failed = false

end Qrexec
