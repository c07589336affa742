import Verif.Model.Str

/-!
# Waiting for a vchan connection (libqrexec/vchan_timeout.c)

The outside: what the clock, `ppoll` and `libvchan_client_init_async_finish` give in each round.
-/
namespace Qrexec

/-- `struct timespec`. -/
structure Tm where
  sec : Int
  nsec : Int
  deriving DecidableEq, Repr

/-- What `ppoll` returns: -1 with EINTR or another error, 0, or 1 and whether POLLIN is set. -/
inductive VwPollRes where
  | eintr | error | timeout | ready (pollin : Bool)
  deriving DecidableEq, Repr

/-- One round. `now`: the clock (`none`: an error); `finish`: the result of `libvchan_client_init_async_finish`. -/
structure VwRound where
  now : Option Tm
  poll : VwPollRes
  finish : Int
  deriving DecidableEq, Repr

/-- Results: -1 after a timeout, -1 for another reason, 0, or not yet returned. -/
inductive VwRes where
  | timedOut | failed | connected | waiting
  deriving DecidableEq, Repr

/-- vchan_timeout.c:30-39: the time that is left; `none`: the time is over. -/
def timeLeft (endT now : Tm) : Option Tm :=
  if now.sec ≤ endT.sec then
    let s := endT.sec - now.sec
    let ns := endT.nsec - now.nsec
    let t : Tm := if ns < 0 then ⟨s - 1, ns + 1000000000⟩ else ⟨s, ns⟩
    if t.sec < 0 then none else some t
  else none

/-- vchan_timeout.c:41-70, behind the calculation of the time: `rest` is the next round. `left`: the time given to `ppoll`. -/
def vwPoll (isServer : Bool) (r : VwRound) (left : Option Tm) (rest : VwRes × List (Option Tm)) : VwRes × List (Option Tm) :=
  match r.poll with
  | .eintr => (rest.1, left :: rest.2)
  | .error => (.failed, [left])
  | .timeout => (.timedOut, [left])
  | .ready false => (rest.1, left :: rest.2)
  | .ready true =>
    if isServer then (.connected, [left])
    else if r.finish < 0 then (.failed, [left])
    else if r.finish = 0 then (.connected, [left])
    else (rest.1, left :: rest.2)

/-- vchan_timeout.c:19-72, the loop; also the times given to `ppoll` (`none`: no limit). -/
def vwLoop (isServer : Bool) (timeout : Int) (endT : Tm) : List VwRound → VwRes × List (Option Tm)
  | [] => (.waiting, [])
  | r :: rs =>
    if timeout > 0 then
      match r.now with
      | none => (.failed, [])
      | some now =>
        match timeLeft endT now with
        | none => (.timedOut, [])
        | some t => vwPoll isServer r (some t) (vwLoop isServer timeout endT rs)
    else vwPoll isServer r none (vwLoop isServer timeout endT rs)

/-- vchan_timeout.c:8-73 `qubes_wait_for_vchan_connection_with_timeout`. -/
def waitVchan (isServer : Bool) (timeout : Int) (start : Option Tm) (rs : List VwRound) : VwRes × List (Option Tm) :=
  match start with
  | none => (.failed, [])
  | some t => vwLoop isServer timeout ⟨t.sec + timeout, t.nsec⟩ rs

end Qrexec
