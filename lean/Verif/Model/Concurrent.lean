import Verif.Model.PolicyDaemon
import Verif.Model.Cache

/-!
# Requests to the policy daemon at the same time

`handle_request` (qrexec_policy_exec.py:345-419) is a coroutine: it runs without interruption up
to an `await`, that is until it asks the GUI domain a question or sends it a notification, and
goes on when the GUI domain has answered.  Meanwhile the daemon serves other requests and reads
notifications about the policy files.  A `Task` is a request from a point where it can be
interrupted on; `PdStep` is what happens in the daemon.

Simplifications: a question or a notification is one message and one reply (the
connection, JSON and stream handling of `call_socket_service` are in `SocketAsk`); the system
information is read when the request starts (`utils.get_system_info` is synchronous, so nothing
else runs meanwhile; reading it and loading the policy is one step); requests have numbers that
are used once.
-/
namespace Qrexec

/-- A request that is being handled, seen from an `await` (or its end) on. -/
inductive Task where
  /-- waits for the answer to `policy.Ask` (qrexec_policy_exec.py:102-106) -/
  | ask (guivm : Str) (params : AskParams) (k : Except Err Str → Task)
  /-- waits until the GUI domain has taken `policy.Notify` (qrexec_policy_exec.py:153-163) -/
  | notify (ev : Event) (k : Task)
  /-- the answer, or the exception that ends the request -/
  | done (r : Except Err Str)

/-- The `except` blocks of `handle_request` (qrexec_policy_exec.py:402-419). -/
def endTask (info : Info) (mode : Mode) (service argument source target : Str)
    (res : Except Err Str) : Task :=
  match res with
  | .ok s => .done (.ok s)
  | .error .policySyntax => .done (.ok c!"result=deny")
  | .error e =>
    if e.isAccessDenied then
      if e.notify && !mode.justEvaluate then
        match info.get? source with
        | none => .done (.error .keyError)
        | some d => match truthy d.guivm with
          | some g => .notify (.notify g false service argument source target)
              (.done (.ok c!"result=deny"))
          | none => .done (.ok c!"result=deny")
      else .done (.ok c!"result=deny")
    else .done (.error e)

/-- `JustEvaluateAllowResolution.execute` (qrexec_policy_exec.py:44-46) or
`NotifyAllowedResolution.execute` (qrexec_policy_exec.py:129-150); `k` is what is done with the
result. -/
def allowTask (mode : Mode) (r : AllowRes) (k : Except Err Str → Task) : Task :=
  if mode.justEvaluate then k (.ok c!"result=allow")
  else match lookupGui r.request.info r.request.source with
    | some g =>
      if r.rule.action.notify then
        .notify (.notify g true r.request.service r.request.argument r.request.source r.target)
          (k r.execute)
      else k r.execute
    | none => k r.execute

/-- `AgentAskResolution.execute` after the answer (qrexec_policy_exec.py:108-126). -/
def answeredTask (mode : Mode) (a : AskRes) (k : Except Err Str → Task) :
    Except Err Str → Task
  | .error e => k (.error e)
  | .ok resp =>
    if resp == c!"deny" then k (.error (.accessDenied a.rule.action.notify))
    else if startsWith c!"allow:" resp then
      match a.handleUserResponse true (resp.drop 6) with
      | .ok r => allowTask mode r k
      | .error e => k (.error e)
    else k (.error (.accessDenied true))

/-- `AssumeYesForAskResolution`, `JustEvaluateAskResolution` and `AgentAskResolution`
(qrexec_policy_exec.py:49-126). -/
def askTask (mode : Mode) (a : AskRes) (k : Except Err Str → Task) : Task :=
  if mode.assumeYes then
    match a.handleUserResponse true a.request.target.str with
    | .ok r => allowTask mode r k
    | .error e => k (.error e)
  else if mode.justEvaluate then k (.ok c!"result=deny")
  else match a.request.info.get? a.request.source with
    | none => k (.error .keyError)
    | some d => match truthy d.guivm with
      | none => k (.error (.accessDenied a.rule.action.notify))
      | some g =>
        .ask g
          { source := a.request.source, service := a.request.service,
            argument := a.request.argument, targets := a.targetsForAsk,
            defaultTarget := a.defaultTarget.getD [] }
          (answeredTask mode a k)

/-- What a request consists of: the system information read for it (`none`: a
`QubesMgmtException`) and the arguments of `handle_request` (qrexec_policy_exec.py:345-357). -/
structure PdRequest where
  sys : Option Info
  mode : Mode
  source : Str
  target : Str
  serviceAndArg : Str
  requestedSource : Str

/-- qrexec_policy_exec.py:345-419 `handle_request` up to its first `await`; `policy` is what
`policy_cache.get_policy()` returns or raises. -/
def PdRequest.task (q : PdRequest) (policy : Except Err (List Rule)) : Task :=
  match q.sys with
  | none => .done (.ok c!"result=deny")
  | some info =>
    let sa := splitServiceArg q.serviceAndArg
    let fin := endTask info q.mode sa.1 sa.2 q.source q.target
    match policy with
    | .error e => fin (.error e)
    | .ok rules => match mkRequest sa.1 sa.2 q.source q.target info q.requestedSource with
      | .error e => fin (.error e)
      | .ok req => match evaluate rules req with
        | .error e => fin (.error e)
        | .ok (.allow r) => allowTask q.mode r fin
        | .ok (.ask a) => askTask q.mode a fin

/-- `handle_request(**args)` (qrexec_policy_daemon.py:127-130): the request of a client that has
sent these arguments, `none` if a required one is missing, which is logged. -/
def clientRequest (sys : Option Info) (args : List (Str × Str)) : Option PdRequest :=
  if requiredArguments.all fun a => (argGet args a).isSome then
    some {
      sys
      mode := {
        justEvaluate := argGet args c!"just_evaluate" == some c!"yes"
        assumeYes := argGet args c!"assume_yes_for_ask" == some c!"yes" }
      source := (argGet args c!"source").getD []
      target := (argGet args c!"intended_target").getD []
      serviceAndArg := (argGet args c!"service_and_arg").getD []
      requestedSource := (argGet args c!"requested_source").getD [] }
  else none

/-- What is written to the client for the result of its request
(qrexec_policy_daemon.py:131-136). -/
def clientBytes : Except Err Str → Option Wire
  | .error _ => none
  | .ok s => if s.isEmpty then some c!"result=deny\n" else if isAscii s then some s else none

/-- What the request sends when it gets to this point. -/
def Task.sends : Task → List Event
  | .ask g p _ => [.ask g p]
  | .notify ev _ => [ev]
  | .done _ => []

/-- What `get_policy()` gave, used as a policy: `None.evaluate` raises (utils.py:100-105; the
policy is `None` only if `outdated` is set, so this does not happen). -/
def policyOf : Except Err (Option (List Rule)) → Except Err (List Rule)
  | .ok (some p) => .ok p
  | .ok none => .error .attributeError
  | .error e => .error e

variable {D : Type}

/-- The policy daemon: its cache (and the directories), the requests that have been made, and
what has been sent to GUI domains, with the number of the request. -/
structure PdState (D : Type) where
  world : CacheWorld D (List Rule)
  tasks : Nat → Option Task := fun _ => none
  sent : List (Nat × Event) := []

/-- What happens in the daemon. -/
inductive PdEv (D : Type) where
  /-- something about the cache, but not a request -/
  | cache (e : CacheEv D (List Rule))
  /-- the request `id` is complete, so `handle_request` runs
  (qrexec_policy_daemon.py:127-130); `get_policy()` gives `res` -/
  | start (id : Nat) (q : PdRequest) (during : List D)
      (loaded : Option (Except Err (List Rule))) (res : Except Err (Option (List Rule)))
  /-- the GUI domain answers the question of the request `id` -/
  | reply (id : Nat) (r : Except Err Str)
  /-- the GUI domain has taken the notification of the request `id`, or that failed -/
  | notified (id : Nat)

/-- The request `id` gets to the point `t`. -/
def PdState.goTo (s : PdState D) (id : Nat) (t : Task) : PdState D :=
  { s with
    tasks := fun i => if i = id then some t else s.tasks i
    sent := s.sent ++ t.sends.map fun e => (id, e) }

/-- One step of the daemon. -/
inductive PdStep (Reads : List D → Except Err (List Rule) → Prop) :
    PdState D → PdEv D → PdState D → Prop where
  | cache {s : PdState D} {e : CacheEv D (List Rule)} {w : CacheWorld D (List Rule)}
      (h : CacheStep Reads s.world e w) (hne : ∀ d l r, e ≠ .get d l r) :
      PdStep Reads s (.cache e) { s with world := w }
  | start {s : PdState D} {id : Nat} {q : PdRequest} {during : List D}
      {loaded : Option (Except Err (List Rule))} {res : Except Err (Option (List Rule))}
      {w : CacheWorld D (List Rule)} (hid : s.tasks id = none)
      (h : CacheStep Reads s.world (.get during loaded res) w) :
      PdStep Reads s (.start id q during loaded res)
        ({ s with world := w }.goTo id (q.task (policyOf res)))
  | reply {s : PdState D} {id : Nat} {g : Str} {p : AskParams} {k : Except Err Str → Task}
      {r : Except Err Str} (h : s.tasks id = some (.ask g p k)) :
      PdStep Reads s (.reply id r) (s.goTo id (k r))
  | notified {s : PdState D} {id : Nat} {ev : Event} {k : Task}
      (h : s.tasks id = some (.notify ev k)) :
      PdStep Reads s (.notified id) (s.goTo id k)

/-- A run of the daemon. -/
inductive PdRun (Reads : List D → Except Err (List Rule) → Prop) :
    PdState D → List (PdEv D) → PdState D → Prop where
  | nil {s : PdState D} : PdRun Reads s [] s
  | snoc {s s' s'' : PdState D} {es : List (PdEv D)} {e : PdEv D}
      (h : PdRun Reads s es s') (hs : PdStep Reads s' e s'') : PdRun Reads s (es ++ [e]) s''

end Qrexec
