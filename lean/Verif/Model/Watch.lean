import Verif.Model.Cache

/-!
# The watcher of the policy directories (qrexec/policy/utils.py)

Which directories are watched, which notifications are asked for and what is done with them. The operations on the file system and the
notifications the kernel makes of them (inotify(7)) are part of the model. `rec=True` and `auto_add=True`: directories below a watched
one are watched too; a directory that appears is taken to be watched at once (in fact a file made in it before pyinotify has
added the watch gives no notification of its own, but the directory's own notification comes later than that).
-/
namespace Qrexec

/-- Kinds of inotify events. -/
inductive NoteKind where
  | create | delete | modify | movedFrom | movedTo | attrib | open | access | closeWrite | closeNowrite | deleteSelf | moveSelf
  deriving DecidableEq, Repr

/-- The mask (utils.py:57-63). -/
def watchMask : List NoteKind := [.create, .delete, .modify, .movedFrom, .movedTo]

/-- utils.py:108-127 `PolicyWatcher`: the handler of an event; pyinotify does nothing for a kind without a `process_` method. -/
def watcherHandle {P : Type} (c : Cache P) : NoteKind → Cache P
  | .create => c.notified
  | .delete => c.notified
  | .modify => c.notified
  | .movedTo => c.notified
  | .movedFrom => c.notified
  | _ => c

/-- utils.py:71-92 the directories watched: `paths` the policy directories, `defaults` the default ones (utils.py:42-47),
`there` says which exist when the watcher starts. -/
def watchRoots (paths defaults : List Path) (there : Path → Bool) : List Path :=
  (paths.filter fun p => !defaults.contains p && there p) ++ defaults.filter there

/-- Is the path below a watched directory? (`rec=True, auto_add=True`, utils.py:78-82, 88-92) -/
def belowRoot (roots : List Path) (p : Path) : Bool := roots.any fun r => r.isPrefixOf p && p != r

/-- What somebody may do to the file system. -/
inductive FsOp where
  /-- create a file, a directory, or a hard link -/
  | make (p : Path)
  /-- write to a file or truncate it -/
  | write (p : Path)
  /-- remove a file or an empty directory -/
  | remove (p : Path)
  /-- rename a file, or a directory with all it holds -/
  | rename (p q : Path)
  deriving Repr

/-- The paths an operation names. -/
def FsOp.paths : FsOp → List Path
  | .make p => [p]
  | .write p => [p]
  | .remove p => [p]
  | .rename p q => [p, q]

/-- The notifications the kernel makes for directories (inotify(7)): kind, and the entry they are about. -/
def FsOp.notes : FsOp → List (NoteKind × Path)
  | .make p => [(.create, p), (.open, p), (.closeWrite, p)]
  | .write p => [(.open, p), (.modify, p), (.closeWrite, p)]
  | .remove p => [(.delete, p)]
  | .rename p q => [(.movedFrom, p), (.movedTo, q)]

/-- The notifications that reach the daemon: below a watched directory, and asked for. -/
def delivered (roots : List Path) (op : FsOp) : List NoteKind :=
  (op.notes.filter fun x => belowRoot roots x.2 && watchMask.contains x.1).map Prod.fst

/-- The cache after the handlers have run. -/
def cacheAfter {P : Type} (roots : List Path) (op : FsOp) (c : Cache P) : Cache P :=
  (delivered roots op).foldl watcherHandle c

/-- utils.py:42-47, qrexec/__init__.py:40-48: the default directories. -/
def defaultPolicyPaths : List Path := [[c!"etc", c!"qubes", c!"policy.d"], [c!"etc", c!"qubes-rpc", c!"policy"]]

end Qrexec
