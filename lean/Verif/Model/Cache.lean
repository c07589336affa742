import Verif.Model.Loader

/-!
# The policy cache (qrexec/policy/utils.py)

`D` is what the policy directories hold, `P` a loaded policy.  The cache object is modelled
exactly; around it runs a world of editors and the inotify queue.  A file system operation in a
watched directory queues a notification; asyncio runs the handler of a queued notification some
time later (but not while `get_policy`, which is synchronous, is running).  Notifications may be
delivered in any order (the kernel's order is a special case; merged notifications are delivered
one right after the other).  Not modelled: the queue overflowing; directories created later (only
directories that exist when the watcher starts are watched, utils.py:74-92), and directories that
are not watched at all.
-/
namespace Qrexec

variable {D P : Type}

/-- The attributes `outdated` and `policy` of a `PolicyCache`. -/
structure Cache (P : Type) where
  outdated : Bool
  policy : Option P
  deriving Repr, DecidableEq

/-- utils.py:28-40 `PolicyCache.__init__`; `load` is what `FilePolicy(...)` returns or raises. -/
def Cache.init (lazy : Bool) (load : Except Err P) : Except Err (Cache P) :=
  if lazy then .ok { outdated := true, policy := none }
  else match load with
    | .error e => .error e
    | .ok p => .ok { outdated := false, policy := some p }

/-- utils.py:100-105 `PolicyCache.get_policy`. -/
def Cache.getPolicy (c : Cache P) (load : Except Err P) : Cache P × Except Err (Option P) :=
  if c.outdated then
    match load with
    | .error e => (c, .error e)
    | .ok p => ({ outdated := false, policy := some p }, .ok (some p))
  else (c, .ok c.policy)

/-- utils.py:113-126 the handlers of `PolicyWatcher`. -/
def Cache.notified (c : Cache P) : Cache P := { c with outdated := true }

/-- What happens. -/
inductive CacheEv (D P : Type) where
  /-- `PolicyCache(...)`; `during` are the edits made while the policy is loaded -/
  | create (lazy : Bool) (during : List D) (loaded : Option (Except Err P))
  /-- `initialize_watcher()` (utils.py:53-92) -/
  | watch
  /-- somebody changes the policy directories, which now hold `d` -/
  | edit (d : D)
  /-- the handler for the notification of the `n`-th edit runs -/
  | deliver (n : Nat)
  /-- `get_policy()`; `loaded` is what loading gave, if it loaded -/
  | get (during : List D) (loaded : Option (Except Err P)) (res : Except Err (Option P))

/-- The state of the world. -/
structure CacheWorld (D P : Type) where
  disk : D
  /-- how many edits there have been -/
  edits : Nat := 0
  watching : Bool := false
  /-- queued notifications -/
  pending : List Nat := []
  cache : Option (Cache P) := none

/-- One edit. -/
def CacheWorld.edit (w : CacheWorld D P) (d : D) : CacheWorld D P :=
  { w with
    disk := d
    edits := w.edits + 1
    pending := if w.watching then w.pending ++ [w.edits + 1] else w.pending }

/-- The world goes on.  `Reads states r`: loading the policy while the directories pass through
`states` may give `r`. -/
inductive CacheStep (Reads : List D → Except Err P → Prop) :
    CacheWorld D P → CacheEv D P → CacheWorld D P → Prop where
  | createLazy {w : CacheWorld D P} {load : Except Err P} {c : Cache P} (h : w.cache = none)
      (hi : Cache.init true load = .ok c) :
      CacheStep Reads w (.create true [] none) { w with cache := some c }
  | create {w : CacheWorld D P} {during : List D} {load : Except Err P} {c : Cache P}
      (h : w.cache = none) (hr : Reads (w.disk :: during) load)
      (hi : Cache.init false load = .ok c) :
      CacheStep Reads w (.create false during (some load))
        { during.foldl CacheWorld.edit w with cache := some c }
  | watch {w : CacheWorld D P} : CacheStep Reads w .watch { w with watching := true }
  | edit {w : CacheWorld D P} {d : D} : CacheStep Reads w (.edit d) (w.edit d)
  | deliver {w : CacheWorld D P} {n : Nat} (h : n ∈ w.pending) :
      CacheStep Reads w (.deliver n)
        { w with pending := w.pending.filter (· ≠ n), cache := w.cache.map Cache.notified }
  | get {w : CacheWorld D P} {c : Cache P} {during : List D} {load : Except Err P}
      (h : w.cache = some c) (hr : c.outdated = true → Reads (w.disk :: during) load) :
      CacheStep Reads w
        (.get during (if c.outdated then some load else none) (c.getPolicy load).2)
        { during.foldl CacheWorld.edit w with cache := some (c.getPolicy load).1 }

/-- A sequence of steps. -/
inductive CacheRun (Reads : List D → Except Err P → Prop) :
    CacheWorld D P → List (CacheEv D P) → CacheWorld D P → Prop where
  | nil {w : CacheWorld D P} : CacheRun Reads w [] w
  | snoc {w w' w'' : CacheWorld D P} {es : List (CacheEv D P)} {e : CacheEv D P}
      (h : CacheRun Reads w es w') (hs : CacheStep Reads w' e w'') :
      CacheRun Reads w (es ++ [e]) w''

end Qrexec
