import Verif.Base.Bytes

/-!
# bindings/ruby: the Ruby objects, the memory they own, and the garbage collector

A Ruby value has a wrapper, allocated without a talloc parent, which takes over (`talloc_steal`) the object of the library.  Nothing is marked: the collector may free any value to which the
program has no reference, in any order.  Modelled are the ownership of memory, the pointers that are followed, and the lock of a database; what the methods compute is not.
-/

namespace Notmuch.Ruby

/-- The classes, bindings/ruby/init.c:52-68. -/
inductive Kind
  | database | query | threads | thread | messages | message | directory
deriving DecidableEq

/-- The talloc parent: a wrapper, or (for the messages of a thread, lib/thread.cc:274) another object. -/
inductive Owner
  | wrapper (r : Nat)
  | object (c : Nat)
deriving DecidableEq

/-- An object of the library. -/
structure CObj where
  kind : Kind
  owner : Owner
  alive : Bool := true
  /-- `query->notmuch`, `message->notmuch`, `messages->notmuch`, `threads->query->notmuch`, `directory->notmuch`: the database used.  That of a thread is not used once the thread is made. -/
  notmuch : Option Nat := none
  /-- `threads->query`, lib/query.cc:52-53. -/
  query : Option Nat := none
  /-- Where the nodes of the list iterated over are: the thread, or the message replied to, lib/messages.c:50, 76. -/
  list : Option Nat := none
  /-- The thread a message was made for (history, used only in proofs). -/
  home : Option Nat := none
  /-- `thread->message_list` and `thread->toplevel_list`; `message->replies`. -/
  lists : List (List Nat) := []
  /-- The rest of the list, if it is an iterator over one, `messages->iterator`. -/
  iter : Option (List Nat) := none
deriving DecidableEq

/-- A Ruby value.  `data` is `DATA_PTR`: `none` for NULL, after `destroy!` or when the value was collected; otherwise the wrapper, with `nm_object`, that may be NULL
(bindings/ruby/message.c:85-87, lib/messages.c:73-74). -/
structure Val where
  kind : Kind
  data : Option (Option Nat)
  /-- The value whose method gave this one (history, used only to state properties). -/
  origin : Option Nat
  /-- The object it was made for (history, used only to state properties). -/
  made : Option Nat
deriving DecidableEq

/-- A loop `each`: the value, the object, kept in a C variable, and whether the block was called before. -/
structure Loop where
  val : Nat
  obj : Nat
  started : Bool
deriving DecidableEq

structure State where
  objs : List CObj := []
  vals : List Val := []
  /-- The values to which the program has a reference. -/
  held : List Nat := []
  loops : List Loop := []
  /-- The databases that are open for writing. -/
  locks : List Nat := []
deriving DecidableEq

def State.init : State := {}

/-- The memory of this object is not freed. -/
def live (s : State) (c : Nat) : Bool := (s.objs[c]?).any (·.alive)

/-- A NULL pointer, or one to memory that is not freed. -/
def okPtr (s : State) : Option Nat → Bool
  | none => true
  | some c => live s c

/-- A function of the library is called with this object: it and what it points to are dereferenced. -/
def touch (s : State) (c : Nat) : Bool :=
  match s.objs[c]? with
  | none => false
  | some o => o.alive && okPtr s o.notmuch && okPtr s o.query && okPtr s o.list

/-- These objects are freed. -/
def kill (s : State) (p : Nat → CObj → Bool) : State :=
  { s with objs := s.objs.mapIdx (fun i o => if p i o then { o with alive := false } else o) }

/-- `talloc_free` of an object, with what is allocated below. -/
def freeObj (s : State) (c : Nat) : State := kill s (fun i o => i == c || o.owner == .object c)

/-- The parent of this object is the wrapper of `r`. -/
def ownedBy (s : State) (r : Nat) (c : Nat) : Bool := (s.objs[c]?).any (fun o => o.owner == .wrapper r)

/-- `notmuch_rb_object_free`, bindings/ruby/defs.h:130-134: `talloc_free` of a wrapper, with what is below (a wrapper, a thread, its messages: there are no more levels). -/
def freeWrapper (s : State) (r : Nat) : State :=
  kill s (fun i o => ownedBy s r i || (match o.owner with | .object c => ownedBy s r c | _ => false))

/-- `DATA_PTR (rb_object) = NULL`. -/
def clear (s : State) (r : Nat) : State := { s with vals := s.vals.modify r (fun v => { v with data := none }) }

inductive Out
  | ok (s : State)
  /-- A Ruby exception. -/
  | raised (s : State)
  /-- Memory that was freed is used, or freed again. -/
  | crash
  /-- Nothing a program, or the collector, can do. -/
  | invalid
deriving DecidableEq

/-- `notmuch_rb_object_create` and `TypedData_Wrap_Struct`, bindings/ruby/defs.h:115-128, 82-83: `talloc_steal` uses the object.  The program gets the value. -/
def wrap (s : State) (k : Kind) (origin : Option Nat) (c : Option Nat) : Out :=
  let r := s.vals.length
  let v : Val := ⟨k, some c, origin, c⟩
  match c with
  | none => .ok { s with vals := s.vals ++ [v], held := r :: s.held }
  | some c =>
    if live s c then
      .ok { s with objs := s.objs.modify c (fun o => { o with owner := .wrapper r }), vals := s.vals ++ [v], held := r :: s.held }
    else .crash

/-- The library makes a new object, which is wrapped.  (Its first parent does not matter.) -/
def make (s : State) (origin : Option Nat) (o : CObj) : Out :=
  wrap { s with objs := s.objs ++ [o] } o.kind origin (some s.objs.length)

/-- The messages of a new thread: which are at the top, and for each the replies. -/
structure Shape where
  tops : List Nat
  replies : List (List Nat)
deriving DecidableEq

/-- What a program and the collector do. -/
inductive Event
  | open (writer : Bool)
  | query (r : Nat)
  | directory (r : Nat)
  | findMessage (r : Nat)
  | searchThreads (r : Nat)
  | searchMessages (r : Nat)
  /-- `thread.messages` (0) and `thread.toplevel_messages` (1). -/
  | listOf (r : Nat) (which : Nat)
  | replies (r : Nat)
  /-- `messages.tags`. -/
  | tags (r : Nat)
  /-- Any other method. -/
  | call (r : Nat)
  | each (r : Nat)
  /-- The innermost loop goes on (the shape is that of the next thread), or ends, by itself or with `break`. -/
  | next (shape : Shape)
  | leave
  | close (r : Nat)
  | destroy (r : Nat)
  /-- The program forgets a value. -/
  | drop (r : Nat)
  /-- A value is collected. -/
  | gc (r : Nat)
deriving DecidableEq

/-- `Data_Get_Notmuch_Object`, bindings/ruby/defs.h:65-80: the method of a class is called on a value that the program has. -/
def withObj (s : State) (r : Nat) (ks : List Kind) (f : Option Nat → Out) : Out :=
  match s.vals[r]? with
  | none => .invalid
  | some v =>
    if s.held.contains r && ks.contains v.kind then
      match v.data with
      | none => .raised s
      | some c => f c
    else .invalid

/-- The same for a method that uses the object; only that of messages can be NULL, for which functions do nothing, lib/messages.c:99-100. -/
def onObj (s : State) (r : Nat) (ks : List Kind) (f : Nat → CObj → Out) : Out :=
  withObj s r ks (fun c => match c with
    | none => .ok s
    | some c => if touch s c then (match s.objs[c]? with | some o => f c o | none => .crash) else .crash)

/-- The messages of the thread with index `t` in the database `d`, allocated below it, lib/thread.cc:274, for indices within the thread. -/
def threadMessages (t : Nat) (d : Option Nat) (sh : Shape) : List CObj :=
  sh.replies.map (fun l => { kind := .message, owner := .object t, notmuch := d, home := some t,
                             lists := [(l.filter (· < sh.replies.length)).map (· + (t + 1))] })

/-- A new thread, `notmuch_threads_get`, lib/query.cc:657-681, and its messages. -/
def newThread (t : Nat) (sh : Shape) : CObj :=
  { kind := .thread, owner := .wrapper 0,
    lists := [(List.range sh.replies.length).map (· + (t + 1)), (sh.tops.filter (· < sh.replies.length)).map (· + (t + 1))] }

/-- `_notmuch_messages_create`, lib/messages.c:68-84, for a list of the object `c`. -/
def iterOver (s : State) (r c : Nat) (l : List Nat) : Out :=
  if l.isEmpty then wrap s .messages (some r) none
  else make s (some r) { kind := .messages, owner := .object c, list := some c, iter := some l }

/-- One step. -/
def step (s : State) : Event → Out
  -- bindings/ruby/database.c:52-116
  | .open w =>
    match make s none { kind := .database, owner := .wrapper 0 } with
    | .ok s' => .ok (if w then { s' with locks := s.objs.length :: s'.locks } else s')
    | out => out
  -- bindings/ruby/database.c:472-493
  | .query r => onObj s r [.database] (fun c _ => make s (some r) { kind := .query, owner := .object c, notmuch := some c })
  -- bindings/ruby/database.c:279-301
  | .directory r => onObj s r [.database] (fun c _ => make s (some r) { kind := .directory, owner := .object c, notmuch := some c })
  -- bindings/ruby/database.c:303-405 (add_message and both find_message)
  | .findMessage r => onObj s r [.database] (fun c _ => make s (some r) { kind := .message, owner := .object c, notmuch := some c, lists := [[]] })
  -- bindings/ruby/query.c:130-143, lib/query.cc:591-636
  | .searchThreads r => onObj s r [.query] (fun c o => make s (some r) { kind := .threads, owner := .object c, notmuch := o.notmuch, query := some c })
  -- bindings/ruby/query.c:151-164, lib/query.cc:353-380
  | .searchMessages r => onObj s r [.query] (fun c o => make s (some r) { kind := .messages, owner := .object c, notmuch := o.notmuch })
  -- bindings/ruby/thread.c:73-107, lib/thread.cc:655-665; an empty list gives an exception
  | .listOf r i => onObj s r [.thread] (fun c o =>
      if (o.lists.getD i []).isEmpty then .raised s else iterOver s r c (o.lists.getD i []))
  -- bindings/ruby/message.c:77-88, lib/message.cc:693-696
  | .replies r => onObj s r [.message] (fun c o => iterOver s r c (o.lists.getD 0 []))
  -- bindings/ruby/messages.c:62-75, lib/messages.c:157-190: the rest of the list is read
  | .tags r => onObj s r [.messages] (fun c o =>
      if (o.iter.getD []).all (touch s) then
        .ok { s with objs := s.objs.modify c (fun o => { o with iter := o.iter.map (fun _ => []) }) }
      else .crash)
  | .call r => onObj s r [.database, .query, .threads, .thread, .messages, .message, .directory] (fun _ _ => .ok s)
  -- bindings/ruby/messages.c:41-55, threads.c:41-55
  | .each r => onObj s r [.messages, .threads] (fun c _ => .ok { s with loops := ⟨r, c, false⟩ :: s.loops })
  | .next sh =>
    match s.loops with
    | [] => .invalid
    | lp :: rest =>
      if touch s lp.obj then
        match s.objs[lp.obj]? with
        | none => .crash
        | some o =>
          let s := { s with loops := ⟨lp.val, lp.obj, true⟩ :: rest }
          match o.kind, o.iter with
          | .threads, _ =>
            -- lib/query.cc:657-681
            let t := s.objs.length
            wrap { s with objs := s.objs ++ newThread t sh :: threadMessages t o.notmuch sh } .thread (some lp.val) (some t)
          | _, none =>
            -- lib/query.cc:505-529
            make s (some lp.val) { kind := .message, owner := .object lp.obj, notmuch := o.notmuch, lists := [[]] }
          | _, some l =>
            -- lib/messages.c:86-150
            let l' := if lp.started then l.tail else l
            let s := { s with objs := s.objs.modify lp.obj (fun o => { o with iter := some l' }) }
            match l' with
            | [] => .ok { s with loops := rest }
            | m :: _ => wrap s .message (some lp.val) (some m)
      else .crash
  | .leave => .ok { s with loops := s.loops.tail }
  -- bindings/ruby/database.c:142-153
  | .close r => onObj s r [.database] (fun c _ => .ok { s with locks := s.locks.filter (· != c) })
  -- bindings/ruby/defs.h:136-148, lib/database.cc:758-770: the object, then the wrapper, is freed
  | .destroy r => withObj s r [.database, .query, .threads, .thread, .messages, .message, .directory] (fun c => match c with
      | none => .ok (clear (freeWrapper s r) r)
      | some c =>
        if live s c then .ok (clear (freeWrapper { freeObj s c with locks := s.locks.filter (· != c) } r) r) else .crash)
  | .drop r => .ok { s with held := s.held.filter (· != r) }
  -- the collector; `dfree` is not called for a NULL pointer
  | .gc r =>
    if s.held.contains r || s.loops.any (fun lp => lp.val == r) then .invalid
    else match s.vals[r]? with
      | none => .invalid
      | some v => match v.data with
        | none => .ok s
        | some _ => .ok (clear (freeWrapper s r) r)

/-- The state after these steps, if all could be done; an exception is caught. -/
def run : State → List Event → Out
  | s, [] => .ok s
  | s, e :: es =>
    match step s e with
    | .ok s' => run s' es
    | .raised s' => run s' es
    | out => out

end Notmuch.Ruby
