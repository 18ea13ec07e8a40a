import Verif.Model.MessageSync

/-!
# bindings/python-cffi/notmuch2/_database.py: atomic sections and revisions

Python programs are statements: a change of a message, raising, `with db.atomic() as ctx:` with a body, `ctx.abort()` of one of the contexts that are
open, and `try` with `except Exception: pass`.  A change made when the database cannot be written raises.  `force_end`, which is for use after a failed
exit, is left out, as are two databases at once.  Xapian does not fail, except perhaps for ending a transaction of a closed database: `closedFails`.
-/

namespace Notmuch.PyAtomic
open Notmuch.MessageSync (Db Doc Term Status beginAtomic endAtomic flush writeDoc)

/-- A Python program. -/
inductive Stmt where
  /-- A change of a message, e.g. `msg.tags.add(...)`. -/
  | write (id : Nat) (terms : List Term)
  | raise
  /-- `ctx.abort()` of the context opened by the `k`th `with` outwards. -/
  | abort (k : Nat)
  /-- `with db.atomic() as ctx: body` -/
  | atomic (body : List Stmt)
  /-- `try: body` and `except Exception: pass` -/
  | tryPass (body : List Stmt)

/-- The database object: what the library knows, and its field `open` (lib/database-private.h); `abandoned` has for each context that is entered, the
inner first, whether its `_exit_fn` was replaced (bindings/python-cffi/notmuch2/_database.py:698-701, 752). -/
structure State where
  db : Db
  opened : Bool
  abandoned : List Bool

/-- `AtomicContext._end_atomic` (bindings/python-cffi/notmuch2/_database.py:720-723): the state and whether it raises.  `closedFails`: Xapian fails to
end a transaction of a closed database (lib/database.cc:1134-1179, the exception). -/
def endAtomicPy (closedFails : Bool) (s : State) : State × Bool :=
  if !s.opened && s.db.writable && s.db.nesting == 1 && closedFails then (s, true)
  else
    let r := endAtomic s.db
    ({ s with db := r.2 }, r.1 != .success)

/-- `AtomicContext.abort` (bindings/python-cffi/notmuch2/_database.py:746-753) with `Database.close` (273-286) and `notmuch_database_close`
(lib/database.cc:504-529): with a transaction open the pending changes are discarded, otherwise they are flushed; closing again does nothing. -/
def abortPy (s : State) (k : Nat) : State :=
  { db := if s.opened then flush s.db else s.db, opened := false, abandoned := s.abandoned.set k true }

mutual
/-- Running a statement: the state and whether it raises.  `with`: `AtomicContext.__enter__` (bindings/python-cffi/notmuch2/_database.py:713-718), the body,
`__exit__` (725-726), which is also called for an exception and does not stop it. -/
def exec (closedFails : Bool) : Stmt → State → State × Bool
  | .write id terms, s => if s.opened && s.db.writable then ({ s with db := (writeDoc s.db id terms).2 }, false) else (s, true)
  | .raise, s => (s, true)
  | .abort k, s => if k < s.abandoned.length then (abortPy s k, false) else (s, true)
  | .atomic body, s =>
    let r := beginAtomic s.db
    if r.1 != .success then (s, true)
    else
      let b := execs closedFails body { s with db := r.2, abandoned := false :: s.abandoned }
      let s' := { b.1 with abandoned := b.1.abandoned.tail }
      if b.1.abandoned.headD false then (s', b.2)
      else
        let e := endAtomicPy closedFails s'
        (e.1, b.2 || e.2)
  | .tryPass body, s => ((execs closedFails body s).1, false)
/-- Running statements in turn until one raises. -/
def execs (closedFails : Bool) : List Stmt → State → State × Bool
  | [], s => (s, false)
  | p :: ps, s =>
    let r := exec closedFails p s
    if r.2 then r else execs closedFails ps r.1
end

/-- `DbRevision` (bindings/python-cffi/notmuch2/_database.py:756-779). -/
structure DbRevision where
  rev : Nat
  uuid : String
deriving DecidableEq

/-- `__eq__` (bindings/python-cffi/notmuch2/_database.py:781-787). -/
def DbRevision.eq (a b : DbRevision) : Bool := if a.uuid != b.uuid then false else a.rev == b.rev
/-- `__lt__` (bindings/python-cffi/notmuch2/_database.py:789-795). -/
def DbRevision.lt (a b : DbRevision) : Bool := if a.uuid != b.uuid then false else decide (a.rev < b.rev)
/-- `__le__` as `functools.total_ordering` (bindings/python-cffi/notmuch2/_database.py:756) makes it: less or equal. -/
def DbRevision.le (a b : DbRevision) : Bool := a.lt b || a.eq b
/-- `__gt__` as `functools.total_ordering` (bindings/python-cffi/notmuch2/_database.py:756) makes it: not less and not equal. -/
def DbRevision.gt (a b : DbRevision) : Bool := !a.lt b && !a.eq b
/-- `__ge__` as `functools.total_ordering` (bindings/python-cffi/notmuch2/_database.py:756) makes it: not less. -/
def DbRevision.ge (a b : DbRevision) : Bool := !a.lt b

end Notmuch.PyAtomic
