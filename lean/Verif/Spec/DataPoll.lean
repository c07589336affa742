import Verif.Model.DataPoll

/-!
# Sleeping: what is claimed
-/
namespace Qrexec.Spec

/-- The iteration sees the world `e`: a write is accepted, at least in part, exactly if the local process can be written to, a
read gives something exactly if there is something, the vchan has this space, and nothing arrives. -/
structure Sees (e : IoReady) (t : Tick) : Prop where
  poll : t.poll = .ready
  wait : t.waitFails = false
  hup : t.stdinHup = e.stdinHup
  out : t.outReady = (decide (e.space > 8) && e.outData)
  err : t.errReady = (decide (e.space > 8) && e.errData)
  writes : if e.writable then ∃ n ks, t.writes = .part n :: ks else ∃ ks, t.writes = .eagain :: ks
  reads : ∃ o os, t.out = o :: os ∧ o.space = e.space ∧ (o.read = .again ↔ e.outData = false)
  readErr : ∃ o os, t.err = o :: os ∧ o.space = e.space ∧ (o.read = .again ↔ e.errData = false)

end Qrexec.Spec
