import Verif.Base.Bytes

/-!
# The objects of the Python bindings and the memory of the library: bindings/python-cffi/notmuch2/

Each Python object has a parent and, in an attribute, a pointer to an object of the library, or `None` once it was destroyed.  The library frees with an object all that it owns (talloc).
Simplified: the library has enough memory and nothing else fails; sets of tags, maps of properties and the configuration are `view`; iterators over tags, file names, properties and the
configuration, and the options for indexing, are `leaf`; a message that an iterator over a thread yields is new each time (these are never freed on their own).
-/

namespace Notmuch.Py

inductive Kind
  | database
  | query
  /-- `MessageIter` of a `Query` -/
  | results
  /-- `ThreadIter` -/
  | threads
  | thread
  /-- `Message` -/
  | message
  /-- `MessageIter` of a `Thread`, or of the replies to a message -/
  | members
  /-- `OwnedMessage` -/
  | owned
  | view
  | leaf
  deriving DecidableEq

/-- A Python object; the pointer is `None`, `NULL`, or an object of the library. -/
structure Obj where
  kind : Kind
  parent : Option Nat
  ptr : Option (Option Nat)
  deriving DecidableEq

/-- All objects: `n` of Python, `m` of the library, with their owners, the owner of what an iterator yields, and whether they were freed. -/
structure World where
  n : Nat
  obj : Nat → Obj
  m : Nat
  owner : Nat → Option Nat
  gives : Nat → Option Nat
  freed : Nat → Bool

inductive Out where
  /-- a new Python object, if the call makes one -/
  | ok (o : Option Nat)
  | stop
  /-- `ObjectDestroyedError`, or there is no such method -/
  | raised
  | useAfterFree
  | doubleFree
  deriving DecidableEq

/-- The property `alive`: _base.py:196-205, _database.py:254-261, _query.py:24-33, _thread.py:22-31, _message.py:60-69, 403-405, 461-470, _tags.py:50-52, 314-323, _config.py:58-60. -/
def aliveIn (obj : Nat → Obj) : Nat → Nat → Bool
  | 0, _ => false
  | f + 1, x =>
    let up := match (obj x).parent with
      | none => false
      | some p => aliveIn obj f p
    match (obj x).kind with
    | .database => (obj x).ptr.isSome
    | .view => up
    | .owned => up
    | _ => up && (obj x).ptr.isSome

/-- `alive` of an object; a parent is made before. -/
def World.alive (w : World) (x : Nat) : Bool := aliveIn w.obj (x + 1) x

/-- Whether `c` is `d` or owns it, directly or not. -/
def belowIn (owner : Nat → Option Nat) (c : Nat) : Nat → Nat → Bool
  | 0, _ => false
  | f + 1, d =>
    d == c || match owner d with
      | none => false
      | some p => belowIn owner c f p

/-- `talloc_free`. -/
def World.free (w : World) (c : Nat) : World := { w with freed := fun d => w.freed d || belowIn w.owner c (d + 1) d }

/-- A Python object changes. -/
def World.set (w : World) (x : Nat) (o : Obj) : World := { w with obj := fun y => if y = x then o else w.obj y }

/-- The attribute is set. -/
def World.setPtr (w : World) (x : Nat) (p : Option (Option Nat)) : World := w.set x { w.obj x with ptr := p }

/-- A new object of the library, whose number is `w.m`. -/
def World.newC (w : World) (owner gives : Option Nat) : World :=
  { w with m := w.m + 1, owner := fun c => if c = w.m then owner else w.owner c, gives := fun c => if c = w.m then gives else w.gives c, freed := fun c => if c = w.m then false else w.freed c }

/-- A new Python object, whose number is `w.n`. -/
def World.newPy (w : World) (o : Obj) : World := { w.set w.n o with n := w.n + 1 }

/-- `_destroy`: _base.py:207-213, _database.py:263-271, _query.py:38-41, _thread.py:36-39, _message.py:74-77, 407-408, _tags.py:54-55, 325-331; and whether it freed twice. -/
def World.destroy (w : World) (x : Nat) : World × Bool :=
  match (w.obj x).kind with
  | .view => (w, false)
  | .owned => (w, false)
  | _ =>
    match if w.alive x then (w.obj x).ptr else none with
    | some (some c) => ((w.free c).setPtr x none, w.freed c)
    | _ => (w.setPtr x none, false)

/-- The pointer through `MemoryPointer`, _base.py:107-118, or through a view, _tags.py:44, _message.py:459; then the library uses it. -/
def World.pointer (w : World) (x : Nat) : Option (Option Nat) :=
  match (w.obj x).kind with
  | .view => match (w.obj x).parent with
    | none => none
    | some p => (w.obj p).ptr
  | _ => (w.obj x).ptr

/-- A call of the library with the pointer of `x`, which makes `k` of it. -/
def World.call (w : World) (x : Nat) (k : Nat → World × Out) : World × Out :=
  match w.pointer x with
  | none => (w, .raised)
  | some none => (w, .raised)
  | some (some c) => if w.freed c then (w, .useAfterFree) else k c

/-- An object of the library with a Python object for it. -/
def World.make (w : World) (kind : Kind) (parent owner : Nat) (gives : Option Nat) : World × Out :=
  ((w.newC (some owner) gives).newPy ⟨kind, some parent, some (some w.m)⟩, .ok (some w.n))

/-- The `Database` of an object. -/
def rootIn (obj : Nat → Obj) : Nat → Nat → Nat
  | 0, x => x
  | f + 1, x =>
    match (obj x).parent with
    | none => x
    | some p => rootIn obj f p

inductive Event where
  | open_
  | query (x : Nat)
  | messages (x : Nat)
  | threads (x : Nat)
  | find (x : Nat)
  | view (x : Nat)
  | leaf (x : Nat)
  | members (x : Nat) (null : Bool)
  | next (x : Nat) (more : Bool)
  | use (x : Nat)
  | del (x : Nat)
  | rollback (x : Nat) (found : Bool)
  deriving DecidableEq

/-- `__next__` when the iterator has an element: _message.py:722-724, _thread.py:192-194, _base.py:228-230; `c` is the iterator of the library (lib/query.cc:508, 674, lib/messages.c:109-118). -/
def World.element (w : World) (x c : Nat) : World × Out :=
  match (w.obj x).kind, w.gives c with
  | .results, some g => w.make .message x g none
  | .threads, some g => w.make .thread x g none
  | .members, some g => w.make .owned x g none
  | .leaf, _ => (w, .ok none)
  | _, _ => (w, .raised)

/-- The object has a method that gives a view, or an iterator of strings. -/
def Kind.hasLeaf : Kind → Bool
  | .database => true
  | .thread => true
  | .message => true
  | .owned => true
  | _ => false

/-- What a program does with objects, and what happens. -/
def step (w : World) (e : Event) : World × Out :=
  match e with
  /- `Database.__init__`, _database.py:142-163 -/
  | .open_ => ((w.newC none none).newPy ⟨.database, none, some (some w.m)⟩, .ok (some w.n))
  /- `_create_query`, _database.py:596-617 -/
  | .query x => if x < w.n ∧ (w.obj x).kind = .database then w.call x (fun c => w.make .query x c none) else (w, .raised)
  /- `Query.messages`, _query.py:49-59, lib/query.cc:367 -/
  | .messages x => if x < w.n ∧ (w.obj x).kind = .query then w.call x (fun c => w.make .results x c (some w.m)) else (w, .raised)
  /- `Query.threads`, _query.py:69-75, lib/query.cc:674 -/
  | .threads x => if x < w.n ∧ (w.obj x).kind = .query then w.call x (fun c => w.make .threads x c (some c)) else (w, .raised)
  /- `Database.find`, `get` and `add`, _database.py:438, 499-507, 533-540, lib/database.cc:455, 1506 -/
  | .find x => if x < w.n ∧ (w.obj x).kind = .database then w.call x (fun c => w.make .message x c none) else (w, .raised)
  /- `tags`, `properties`, `config`: _message.py:280-290, 357-366, _thread.py:160-178, _database.py:543-594 -/
  | .view x => if x < w.n ∧ (w.obj x).kind.hasLeaf then (w.newPy ⟨.view, some x, none⟩, .ok (some w.n)) else (w, .raised)
  /- _tags.py:88-93, _message.py:157-172, 475-482, 622-625, _config.py:90-98, _database.py:384-385 -/
  | .leaf x => if x < w.n ∧ ((w.obj x).kind.hasLeaf ∨ (w.obj x).kind = .view) then w.call x (fun c => w.make .leaf x c none) else (w, .raised)
  /- `Thread.toplevel`, `Thread.__iter__`, `replies`: _thread.py:57-79, _message.py:368-381; `NULL` if there are none (lib/messages.c:68-84), as for a message that is not from a thread -/
  | .members x null =>
    if x < w.n ∧ ((w.obj x).kind = .thread ∨ (w.obj x).kind = .owned ∨ (w.obj x).kind = .message) then
      w.call x (fun c =>
        if null = true ∨ (w.obj x).kind = .message then (w.newPy ⟨.members, some x, some none⟩, .ok (some w.n))
        else w.make .members x c (if (w.obj x).kind = .thread then some c else w.owner c))
    else (w, .raised)
  /- `NotmuchIter.__next__`, _base.py:224-230, `TagsIter.__next__`, _tags.py:342-351 -/
  | .next x more =>
    if x < w.n ∧ ((w.obj x).kind = .results ∨ (w.obj x).kind = .threads ∨ (w.obj x).kind = .members ∨ (w.obj x).kind = .leaf) then
      match (w.obj x).ptr with
      | none => (w, .raised)
      | some none => ((w.destroy x).1, if (w.destroy x).2 then .doubleFree else .stop)
      | some (some c) =>
        if w.freed c then (w, .useAfterFree)
        else if more then w.element x c
        else ((w.destroy x).1, if (w.destroy x).2 then .doubleFree else .stop)
    else (w, .raised)
  /- any other method -/
  | .use x => if x < w.n then w.call x (fun _ => (w, .ok none)) else (w, .raised)
  /- `__del__`, _base.py:69-70, 193-194 -/
  | .del x => if x < w.n then ((w.destroy x).1, if (w.destroy x).2 then .doubleFree else .ok none) else (w, .raised)
  /- the end of `frozen` with an exception, _message.py:318-328 -/
  | .rollback x found =>
    if x < w.n ∧ ((w.obj x).kind = .message ∨ (w.obj x).kind = .owned) then
      w.call x (fun _ =>
        if (w.destroy x).2 then ((w.destroy x).1, .doubleFree)
        else
          let w1 := (w.destroy x).1
          match (w1.obj (rootIn w1.obj (x + 1) x)).ptr with
          | some (some d) =>
            if found = false then (w1, .ok none)
            else if w1.freed d then (w1, .useAfterFree)
            else ((w1.newC (some d) none).setPtr x (some (some w1.m)), .ok none)
          | _ => (w1, .ok none))
    else (w, .raised)

/-- A program. -/
def run (w : World) : List Event → World
  | [] => w
  | e :: es => run (step w e).1 es

/-- Nothing was made. -/
def World.empty : World := ⟨0, fun _ => ⟨.view, none, none⟩, 0, fun _ => none, fun _ => none, fun _ => false⟩

end Notmuch.Py
