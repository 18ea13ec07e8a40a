import Verif.Model.Message
import Verif.Model.ConfigCmd

/-!
# The collections of the Python bindings

`bindings/python-cffi/notmuch2/_tags.py` makes a Python set of the tags of a message, and `_message.py` makes a Python mapping of its properties.  What these classes do not
define themselves they have from `collections.abc` (`Set`, `MutableSet`, `Mapping` and `MutableMapping` of CPython's `_collections_abc.py`), which is modelled as it is
there.  Every call of the C library is a call of `Notmuch.Message.call`.  Whether the objects are alive is in Model/PyObjects.lean (C72); here they are.
-/

namespace Notmuch.PyColl

open Notmuch.Message
open Notmuch.ConfigCmd (Utf8 utf8Step)
open Notmuch.StringMap (Pair strcmp)

/-- A Python value.  `text s` is the `str` whose UTF-8 is `s`, `lone` a `str` that has no UTF-8 (there is a surrogate in it), `raw` is a `bytes`, and `other` anything else that
can be in a set.  Two values are equal for Python just if they are equal here (`'a' != b'a'`). -/
inductive Val
  | text (s : Str)
  | raw (s : Str)
  | lone (n : Nat)
  | other (n : Nat)
  deriving DecidableEq

/-- The exceptions: `KeyError`, `TypeError`, `AttributeError`, `UnicodeEncodeError`, and a subclass of `NotmuchError` (bindings/python-cffi/notmuch2/_errors.py:8-83). -/
inductive Exc
  | key | type | attribute | unicode
  | notmuch (s : Status)
  deriving DecidableEq

/-- Python code that uses a message: `none` if the C library ends the process, `error` if it raises. -/
def Py (α : Type) : Type := Handle → Option (Handle × Except Exc α)

/-- What comes after a part of the code: nothing, if that ended the process or raised. -/
def Py.next {α β : Type} (r : Option (Handle × Except Exc α)) (f : α → Py β) : Option (Handle × Except Exc β) := match r with
  | none => none
  | some (h, .error e) => some (h, .error e)
  | some (h, .ok a) => f a h

/-- One after the other. -/
instance : Monad Py where
  pure a := fun h => some (h, .ok a)
  bind p f := fun h => Py.next (p h) f

/-- `raise`. -/
def raise {α : Type} (e : Exc) : Py α := fun h => some (h, .error e)

/-- `except KeyError`. -/
def orKey {α : Type} (p q : Py α) : Py α := fun h => match p h with
  | some (h, .error .key) => q h
  | r => r

/-- A call of the C library. -/
def ccall (W : World) (c : Call) : Py Result := fun h => (call W h c).map (fun r => (r.1, .ok r.2))

/-- `if ret != capi.lib.NOTMUCH_STATUS_SUCCESS: raise errors.NotmuchError(ret)`, _tags.py:196-198 and everywhere else. -/
def checked (W : World) (c : Call) : Py Unit := do
  match ← ccall W c with
  | .status .success => pure ()
  | .status s => raise (.notmuch s)
  | _ => pure ()

/-! ## Text -/

/-- `bytes.decode('utf-8', 'ignore')`, as the UTF-8 of what it gives: the longest beginnings of characters that do not go on are left out.  A NUL does not occur here (the bytes
are C strings). -/
def ignoreFrom : Utf8 → Str → Str → Str
  | _, _, [] => []
  | q, p, c :: s =>
    match utf8Step q c with
    | some .start => p ++ c :: ignoreFrom .start [] s
    | some q => ignoreFrom q (p ++ [c]) s
    | none =>
      match utf8Step .start c with
      | some .start => c :: ignoreFrom .start [] s
      | some q => ignoreFrom q [c] s
      | none => ignoreFrom .start [] s

/-- `tag.decode(encoding='utf-8', errors='ignore')`, _tags.py:345-346; `BinString.from_cffi`, _base.py:147-158. -/
def decode (s : Str) : Val := .text (ignoreFrom .start [] s)

/-- `if isinstance(tag, str): tag = tag.encode()`; what is no `bytes` then is `none`. -/
def encode : Val → Py (Option Str)
  | .text s => pure (some s)
  | .raw s => pure (some s)
  | .lone _ => raise .unicode
  | .other _ => pure none

/-- What C sees of a `bytes`: everything before the first NUL. -/
def cut (s : Str) : Str := s.takeWhile (· ≠ 0)

/-- An argument that is to be a `str` or a `bytes` (_tags.py:192-195, and cffi for the others). -/
def argument (v : Val) : Py Str := do
  match ← encode v with
  | some s => pure (cut s)
  | none => raise .type

/-- `set(it)`. -/
def mkset {α : Type} [DecidableEq α] : List α → List α
  | [] => []
  | v :: l => if v ∈ mkset l then mkset l else v :: mkset l

/-- One element of `sorted`. -/
def insertBytes (x : Str) : List Str → List Str
  | [] => [x]
  | y :: l => if strcmp y x = .lt then y :: insertBytes x l else x :: y :: l

/-- `sorted` of a list of `bytes`. -/
def sortBytes (l : List Str) : List Str := l.foldr insertBytes []

/-! ## The tags -/

/-- `ImmutableTagSet.iter` without a codec, _tags.py:70-99, read to the end (TagsIter.__next__, _tags.py:339-348).  The list is what the tags were when the iterator was made,
whatever happens to the message while it is read (lib/message.cc:1273-1280). -/
def rawTags (W : World) : Py (List Str) := do
  match ← ccall W .tags with
  | .texts l => pure l
  | _ => pure []

/-- `ImmutableTagSet.__iter__`, _tags.py:60-68. -/
def iter (W : World) : Py (List Val) := do
  let l ← rawTags W
  pure (l.map decode)

/-- `ImmutableTagSet.__len__`, _tags.py:101-102. -/
def len (W : World) : Py Nat := do
  let l ← iter W
  pure l.length

/-- `ImmutableTagSet.__contains__`, _tags.py:104-111. -/
def contains (W : World) (v : Val) : Py Bool := do
  let t ← encode v
  let l ← rawTags W
  pure (match t with
    | some t => decide (t ∈ l)
    | none => false)

/-- The other operand: the object itself, a set of tags that has the tags `l` (of another message, of a thread or of the database), a `set`, and an iterable that is no set. -/
inductive Operand
  | it
  | tags (l : List Str)
  | set (l : List Val)
  | list (l : List Val)

/-- `isinstance(other, Set)`. -/
def Operand.isSet : Operand → Bool
  | .list _ => false
  | _ => true

/-- `iter(other)`. -/
def Operand.iter (W : World) : Operand → Py (List Val)
  | .it => PyColl.iter W
  | .tags l => pure (l.map decode)
  | .set l => pure l
  | .list l => pure l

/-- `len(other)`. -/
def Operand.len (W : World) : Operand → Py Nat
  | .it => PyColl.len W
  | .tags l => pure l.length
  | .set l => pure l.length
  | .list l => pure l.length

/-- `value in other`. -/
def Operand.contains (W : World) (v : Val) : Operand → Py Bool
  | .it => PyColl.contains W v
  | .tags l => do
    let t ← encode v
    pure (match t with
      | some t => decide (t ∈ l)
      | none => false)
  | .set l => pure (decide (v ∈ l))
  | .list l => pure (decide (v ∈ l))

/-- `_from_iterable(other)` if it is no set. -/
def Operand.toSet : Operand → Operand
  | .list l => .set (mkset l)
  | o => o

/-- `all(f(v) for v in l)`. -/
def allOf (f : Val → Py Bool) : List Val → Py Bool
  | [] => pure true
  | v :: l => do
    if ← f v then allOf f l else pure false

/-- `[v for v in l if f(v)]`. -/
def select (f : Val → Py Bool) : List Val → Py (List Val)
  | [] => pure []
  | v :: l => do
    let b ← f v
    let r ← select f l
    pure (if b then v :: r else r)

/-- `for v in l: f(v)`. -/
def each (f : Val → Py Unit) : List Val → Py Unit
  | [] => pure ()
  | v :: l => do
    f v
    each f l

/-- `ImmutableTagSet.__eq__`, _tags.py:113-114: a `set` has no `iter`. -/
def eq (W : World) (o : Operand) : Py Bool := do
  let l ← rawTags W
  match o with
  | .it => do
    let k ← rawTags W
    pure (decide (sortBytes l = sortBytes k))
  | .tags k => pure (decide (sortBytes l = sortBytes k))
  | .set _ => raise .attribute
  | .list _ => raise .attribute

/-- `Set.__le__`; `ImmutableTagSet.issubset`, _tags.py:116-117. -/
def le (W : World) (o : Operand) : Py Bool := do
  if o.isSet then
    let n ← len W
    let k ← o.len W
    if n > k then pure false
    else
      let l ← iter W
      allOf (fun v => o.contains W v) l
  else raise .type

/-- `Set.__ge__`; `ImmutableTagSet.issuperset`, _tags.py:119-120. -/
def ge (W : World) (o : Operand) : Py Bool := do
  if o.isSet then
    let n ← len W
    let k ← o.len W
    if n < k then pure false
    else
      let l ← o.iter W
      allOf (fun v => contains W v) l
  else raise .type

/-- `Set.__lt__`. -/
def lt (W : World) (o : Operand) : Py Bool := do
  if o.isSet then
    let n ← len W
    let k ← o.len W
    if n < k then le W o else pure false
  else raise .type

/-- `Set.__gt__`. -/
def gt (W : World) (o : Operand) : Py Bool := do
  if o.isSet then
    let n ← len W
    let k ← o.len W
    if n > k then ge W o else pure false
  else raise .type

/-- `Set.isdisjoint`. -/
def disjoint (W : World) (o : Operand) : Py Bool := do
  let l ← o.iter W
  allOf (fun v => do
    let b ← contains W v
    pure (!b)) l

/-- `Set.__and__`; `ImmutableTagSet.intersection`, _tags.py:125-126. -/
def and (W : World) (o : Operand) : Py (List Val) := do
  let l ← o.iter W
  let r ← select (fun v => contains W v) l
  pure (mkset r)

/-- `Set.__or__`; `ImmutableTagSet.union`, _tags.py:122-123. -/
def or (W : World) (o : Operand) : Py (List Val) := do
  let l ← iter W
  let k ← o.iter W
  pure (mkset (l ++ k))

/-- `Set.__sub__`; `ImmutableTagSet.difference`, _tags.py:128-129. -/
def sub (W : World) (o : Operand) : Py (List Val) := do
  let l ← iter W
  let r ← select (fun v => do
    let b ← o.toSet.contains W v
    pure (!b)) l
  pure (mkset r)

/-- `other - self`: `Set.__sub__` of a set of tags, `Set.__rsub__` for a `set`. -/
def rsub (W : World) (o : Operand) : Py (List Val) := do
  let l ← o.iter W
  let r ← select (fun v => do
    let b ← contains W v
    pure (!b)) l
  pure (mkset r)

/-- `Set.__xor__`; `ImmutableTagSet.symmetric_difference`, _tags.py:131-132. -/
def xor (W : World) (o : Operand) : Py (List Val) := do
  let l ← sub W o.toSet
  let k ← rsub W o.toSet
  pure (mkset (l ++ k))

/-- `MutableTagSet.add`, _tags.py:174-198. -/
def add (W : World) (v : Val) : Py Unit := do
  let t ← argument v
  checked W (.addTag t)

/-- `MutableTagSet.discard`, _tags.py:200-223. -/
def discard (W : World) (v : Val) : Py Unit := do
  let t ← argument v
  checked W (.removeTag t)

/-- `MutableSet.remove`. -/
def remove (W : World) (v : Val) : Py Unit := do
  let b ← contains W v
  if b then discard W v else raise .key

/-- `MutableSet.pop`. -/
def pop (W : World) : Py Val := do
  let l ← iter W
  match l with
  | [] => raise .key
  | v :: _ =>
    discard W v
    pure v

/-- `MutableTagSet.clear`, _tags.py:225-233. -/
def clear (W : World) : Py Unit := checked W .removeAllTags

/-- `MutableSet.__ior__`. -/
def ior (W : World) (o : Operand) : Py Unit := do
  let l ← o.iter W
  each (fun v => add W v) l

/-- `MutableSet.__iand__`. -/
def iand (W : World) (o : Operand) : Py Unit := do
  let l ← sub W o
  each (fun v => discard W v) l

/-- `MutableSet.__isub__`. -/
def isub (W : World) (o : Operand) : Py Unit := do
  match o with
  | .it => clear W
  | o =>
    let l ← o.iter W
    each (fun v => discard W v) l

/-- `MutableSet.__ixor__`. -/
def ixor (W : World) (o : Operand) : Py Unit := do
  match o with
  | .it => clear W
  | o =>
    let l ← o.toSet.iter W
    each (fun v => do
      let b ← contains W v
      if b then discard W v else add W v) l

/-! ## The properties -/

/-- `notmuch_message_get_properties` read to the end, _message.py:477, 524-531. -/
def pairs (W : World) (key : Str) (exact : Bool) : Py (List Pair) := do
  match ← ccall W (.properties key exact) with
  | .pairs l => pure l
  | _ => pure []

/-- `PropertiesMap.__iter__`, _message.py:470-478, with `PropertiesKeyIter`, _message.py:624-637. -/
def keyIter (W : World) : Py (List Val) := do
  let l ← pairs W [] false
  pure (l.map (fun p => decode p.1))

/-- `PropertiesMap.__len__`, _message.py:480-489. -/
def propLen (W : World) : Py Nat := do
  let l ← pairs W [] false
  pure l.length

/-- `PropertiesMap.__getitem__`, _message.py:491-501. -/
def getitem (W : World) (k : Val) : Py Val := do
  let k ← argument k
  match ← ccall W (.property k) with
  | .value (some v) => pure (decode v)
  | _ => raise .key

/-- `Mapping.__contains__`. -/
def hasKey (W : World) (k : Val) : Py Bool :=
  orKey (do
    let _ ← getitem W k
    pure true) (pure false)

/-- `PropertiesMap.keys`, _message.py:503-509. -/
def keys (W : World) : Py (List Val) := do
  let l ← keyIter W
  pure (mkset l)

/-- `PropertiesMap.items`, _message.py:511-528. -/
def items (W : World) : Py (List (Val × Val)) := do
  let l ← pairs W [] false
  pure (mkset (l.map (fun p => (decode p.1, decode p.2))))

/-- `PropertiesMap.values`, _message.py:530-542. -/
def values (W : World) : Py (List Val) := do
  let l ← pairs W [] false
  pure (mkset (l.map (fun p => decode p.2)))

/-- `PropertiesMap.add`, _message.py:553-561; `PropertiesMap.__setitem__`, _message.py:544-551. -/
def setitem (W : World) (k v : Val) : Py Unit := do
  let k ← argument k
  let v ← argument v
  checked W (.addProperty k v)

/-- `PropertiesMap.__delitem__`, _message.py:563-569. -/
def delitem (W : World) (k : Val) : Py Unit := do
  let k ← argument k
  checked W (.removeAllProperties (some k) false)

/-- `PropertiesMap.remove`, _message.py:571-579. -/
def removeProp (W : World) (k v : Val) : Py Unit := do
  let k ← argument k
  let v ← argument v
  checked W (.removeProperty k v)

/-- `PropertiesMap.pop`, _message.py:581-591.  `except KeyError` is for the lookup only. -/
def popProp (W : World) (k : Val) (default : Option Val) : Py Val := do
  let v ← orKey (do
    let v ← getitem W k
    pure (some v)) (pure none)
  match v with
  | some v =>
    removeProp W k v
    pure v
  | none => match default with
    | some d => pure d
    | none => raise .key

/-- `PropertiesMap.popitem`, _message.py:593-599. -/
def popitem (W : World) : Py (Val × Val) := do
  match ← keyIter W with
  | [] => raise .key
  | k :: _ =>
    let v ← popProp W k none
    pure (k, v)

/-- `PropertiesMap.clear`, _message.py:601-605. -/
def clearProps (W : World) : Py Unit := checked W (.removeAllProperties none false)

/-- `PropertiesMap.getall`, _message.py:607-621, read to the end (`PropertiesIter`, _message.py:640-660). -/
def getall (W : World) (p : Val) (exact : Bool) : Py (List (Val × Val)) := do
  let p ← argument p
  let l ← pairs W p exact
  pure (l.map (fun p => (decode p.1, decode p.2)))

/-- `MutableMapping.setdefault`. -/
def setdefault (W : World) (k d : Val) : Py Val := do
  let v ← orKey (do
    let v ← getitem W k
    pure (some v)) (pure none)
  match v with
  | some v => pure v
  | none =>
    setitem W k d
    pure d

/-! ## Programs -/

/-- What a program does with the tags and the properties of a message. -/
inductive Op
  | len | iter | iterRaw | contains (v : Val)
  | eq (o : Operand) | le (o : Operand) | lt (o : Operand) | ge (o : Operand) | gt (o : Operand) | disjoint (o : Operand)
  | and (o : Operand) | or (o : Operand) | sub (o : Operand) | xor (o : Operand)
  | add (v : Val) | discard (v : Val) | remove (v : Val) | pop | clear
  | ior (o : Operand) | iand (o : Operand) | isub (o : Operand) | ixor (o : Operand)
  | propLen | keyIter | getitem (k : Val) | hasKey (k : Val) | keys | items | values
  | setitem (k v : Val) | delitem (k : Val) | removeProp (k v : Val) | popProp (k : Val) (default : Option Val) | popitem | clearProps
  | getall (p : Val) (exact : Bool) | setdefault (k d : Val)

/-- What it gets. -/
inductive Out
  | unit
  | bool (b : Bool)
  | num (n : Nat)
  | val (v : Val)
  | pair (k v : Val)
  | vals (l : List Val)
  | raws (l : List Str)
  | list (l : List (Val × Val))
  | set (l : List Val)
  | pairSet (l : List (Val × Val))
  deriving DecidableEq

/-- With the kind of the result. -/
def give {α : Type} (f : α → Out) (p : Py α) : Py Out := do
  let a ← p
  pure (f a)

/-- One operation. -/
def step (W : World) : Op → Py Out
  | .len => give .num (len W)
  | .iter => give .vals (iter W)
  | .iterRaw => give .raws (rawTags W)
  | .contains v => give .bool (contains W v)
  | .eq o => give .bool (eq W o)
  | .le o => give .bool (le W o)
  | .lt o => give .bool (lt W o)
  | .ge o => give .bool (ge W o)
  | .gt o => give .bool (gt W o)
  | .disjoint o => give .bool (disjoint W o)
  | .and o => give .set (and W o)
  | .or o => give .set (or W o)
  | .sub o => give .set (sub W o)
  | .xor o => give .set (xor W o)
  | .add v => give (fun _ => .unit) (add W v)
  | .discard v => give (fun _ => .unit) (discard W v)
  | .remove v => give (fun _ => .unit) (remove W v)
  | .pop => give .val (pop W)
  | .clear => give (fun _ => .unit) (clear W)
  | .ior o => give (fun _ => .unit) (ior W o)
  | .iand o => give (fun _ => .unit) (iand W o)
  | .isub o => give (fun _ => .unit) (isub W o)
  | .ixor o => give (fun _ => .unit) (ixor W o)
  | .propLen => give .num (propLen W)
  | .keyIter => give .vals (keyIter W)
  | .getitem k => give .val (getitem W k)
  | .hasKey k => give .bool (hasKey W k)
  | .keys => give .set (keys W)
  | .items => give .pairSet (items W)
  | .values => give .set (values W)
  | .setitem k v => give (fun _ => .unit) (setitem W k v)
  | .delitem k => give (fun _ => .unit) (delitem W k)
  | .removeProp k v => give (fun _ => .unit) (removeProp W k v)
  | .popProp k d => give .val (popProp W k d)
  | .popitem => give (fun p => .pair p.1 p.2) (popitem W)
  | .clearProps => give (fun _ => .unit) (clearProps W)
  | .getall p e => give .list (getall W p e)
  | .setdefault k d => give .val (setdefault W k d)

/-- A program: it goes on after what is raised (`try`). -/
def run (W : World) : Handle → List Op → Option (Handle × List (Except Exc Out))
  | h, [] => some (h, [])
  | h, o :: os =>
    match step W o h with
    | none => none
    | some (h, r) => match run W h os with
      | none => none
      | some (h, rs) => some (h, r :: rs)

end Notmuch.PyColl
