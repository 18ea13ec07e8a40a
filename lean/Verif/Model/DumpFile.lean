import Verif.Model.Insert
import Verif.Model.DumpRestore

/-!
# notmuch-dump.c: the file of a dump, and notmuch-new.c: the backup before an upgrade

The file system is that of the model `Insert`.  What `database_dump_file` prints is in the model `DumpRestore`; here it is a text `text` that zlib packs and
writes.  A list of results stands for the `write` calls of zlib: `some n`, so many bytes were written; `none`, an error, after which zlib writes nothing more to
the file.  When the list is used up the process hangs or was killed there.
-/

namespace Notmuch.DumpFile
open Notmuch.Insert (Fs W unlinkIf)

/-- The results of the system calls.  `suffix`: what `mkstemp` puts for `XXXXXX`, or that it fails, with `tried` in the template; `gzOpen`: `gzdopen` works;
`text`: what `database_dump_file` printed, and `dumpOk`: it was all; `pack`: what zlib makes of it (the same text, or compressed); `buffered`: how many bytes of this
are written before `gzflush`; `early`, `late`, `atClose`: the results of `write` before `gzflush`, in it, and in `gzclose_w`; `trailer`: what `gzclose_w` writes
after a `gzflush` with Z_FINISH (nothing, or for old versions of zlib another empty gzip member); then `fsync`, `close`, `rename` and `unlink`. -/
structure Env where
  suffix : Option Str
  tried : Str
  gzOpen : Bool
  text : Str
  dumpOk : Bool
  pack : Str → Str
  buffered : Nat
  early : List (Option Nat)
  late : List (Option Nat)
  atClose : List (Option Nat)
  trailer : Str
  fsyncOk : Bool
  closeOk : Bool
  renameOk : Bool
  cleanOk : Bool

/-- How a function ends: it returns success or not, the process exits with status 1 (`ASSERT_GZBYTES`, notmuch-client.h:487-490), or it does not end. -/
inductive Exit
  | done (ok : Bool)
  | exit1
  | stuck
  deriving DecidableEq

/-- zlib writes bytes to the file `i`: `none` if it does not end, else whether there was no error. -/
def gzWrite (i : Nat) : List (Option Nat) → Str → W → W × Option Bool
  | ws, s, w =>
    if s = [] then (w, some true)
    else
      match ws with
      | [] => (w, none)
      | none :: _ => (w, some false)
      | some n :: ws => gzWrite i ws (s.drop n) (w.put (w.fs.append i (s.take n)))

/-- The name given to `mkstemp`, notmuch-dump.c:297. -/
def tempName (out suffix : Str) : Str := out ++ bs "." ++ suffix

/-- After an error: notmuch-dump.c:355-360.  `rest` is what `gzclose_w` still has to write. -/
def cleanUp (E : Env) (i : Nat) (t rest : Str) (w : W) : W × Exit :=
  match gzWrite i E.atClose rest w with
  | (w, none) => (w, .stuck)
  | (w, some _) => (unlinkIf E.cleanOk t w, .done false)

/-- notmuch-dump.c:333-354: `gzclose_w` and `rename`. -/
def closeAndRename (E : Env) (i : Nat) (out t : Str) (w : W) : W × Exit :=
  match gzWrite i E.atClose E.trailer w with
  | (w, none) => (w, .stuck)
  | (w, some false) => (unlinkIf E.cleanOk t w, .done false)
  | (w, some true) =>
    if !E.closeOk then (unlinkIf E.cleanOk t w, .done false)
    else if !E.renameOk then (unlinkIf E.cleanOk t w, .done false)
    else (w.put (w.fs.rename t out), .done true)

/-- notmuch-dump.c:318-331: `gzflush` and `fsync`. -/
def flushAndSync (E : Env) (i : Nat) (out t : Str) (w : W) : W × Exit :=
  match gzWrite i E.late ((E.pack E.text).drop E.buffered) w with
  | (w, none) => (w, .stuck)
  | (w, some false) => (unlinkIf E.cleanOk t w, .done false)
  | (w, some true) =>
    if !E.fsyncOk then cleanUp E i t E.trailer w
    else closeAndRename E i out t (w.put (w.fs.sync i))

/-- `notmuch_database_dump` into a file, notmuch-dump.c:278-362.  Dumping to standard output is not modelled. -/
def dumpTo (E : Env) (out : Str) (w : W) : W × Exit :=
  match E.suffix with
  | none => (unlinkIf E.cleanOk (tempName out E.tried) w, .done false)
  | some x =>
    let t := tempName out x
    let i := w.fs.next
    let w := w.put (w.fs.create t)
    if !E.gzOpen then (unlinkIf E.cleanOk t w, .done false)
    else
      match gzWrite i E.early ((E.pack E.text).take E.buffered) w with
      | (w, none) => (w, .stuck)
      | (w, some false) => (w, .exit1)
      | (w, some true) =>
        if !E.dumpOk then cleanUp E i t ((E.pack E.text).drop E.buffered) w
        else flushAndSync E i out t w

/-! ## The backup -/

/-- `struct tm` as `gmtime` gives it, as far as it is used. -/
structure Tm where
  year : Nat
  mon : Nat
  mday : Nat
  hour : Nat
  min : Nat
  sec : Nat
  deriving DecidableEq

/-- `%0kd` for numbers that are not negative. -/
def pad (k n : Nat) : Str := List.replicate (k - (dec n).length) 48 ++ dec n

/-- The name of the backup, notmuch-new.c:1078-1085; `year` is the year and `mon` counts from 1. -/
def backupName (dir : Str) (tm : Tm) : Str :=
  dir ++ bs "/dump-" ++ pad 4 tm.year ++ pad 2 tm.mon ++ pad 2 tm.mday ++ bs "T" ++ pad 2 tm.hour ++ pad 2 tm.min ++ pad 2 tm.sec ++ bs ".gz"

/-- The result of `mkdir`. -/
inductive Mkdir
  | made
  | exists
  | failed

/-- What `_maybe_upgrade` meets. -/
structure UpEnv where
  needs : Bool
  mkdir : Mkdir
  dir : Str
  tm : Tm
  dump : Env
  upgradeOk : Bool

/-- `_maybe_upgrade`, notmuch-new.c:1057-1113: how it ends, and whether `notmuch_database_upgrade` was called. -/
def maybeUpgrade (U : UpEnv) (w : W) : W × Exit × Bool :=
  if !U.needs then (w, .done true, false)
  else
    match U.mkdir with
    | .failed => (w, .done false, false)
    | _ =>
      match dumpTo U.dump (backupName U.dir U.tm) w with
      | (w, .done true) => (w, .done U.upgradeOk, true)
      | (w, e) => (w, e, false)

end Notmuch.DumpFile
