import Verif.Model.PyCollections
import Verif.Spec.Message
import Verif.Spec.Utf8

/-!
# Specification: the collections of the Python bindings (C74)

The tags of a message are a Python set of its tags, and its properties are a multimap.  `m` is the message as in C62, `m'` the message afterwards.
-/

namespace Notmuch.PyColl

open Notmuch.Message
open Notmuch.TermList (Sorted PropOp)
open Notmuch.StringMap (Pair)
open Notmuch.StringMapSpec (LexLe PairLe Matches)
open Notmuch.Utf8Spec (Valid)

/-- The `str` and the `bytes` of a name. -/
def Val.Names (v : Val) (t : Str) : Prop := v = .text t ∨ v = .raw t

/-- The names in the other operand. -/
def Operand.Has (m : Msg) (t : Str) : Operand → Prop
  | .it => m.tags t
  | .tags l => t ∈ l
  | .set l => .text t ∈ l
  | .list l => .text t ∈ l

/-- It is the collection itself, other tags, or has nothing but `str`s, and these can be encoded. -/
def Operand.Ok : Operand → Prop
  | .it => True
  | .tags l => Sorted l ∧ ∀ t ∈ l, Valid t
  | .set l => l.Nodup ∧ ∀ v ∈ l, ∃ t, v = .text t ∧ Valid t
  | .list l => ∀ v ∈ l, ∃ t, v = .text t ∧ Valid t

/-- A Python set of the `str`s with the names `P`. -/
def SetOf (l : List Val) (P : Str → Prop) : Prop := l.Nodup ∧ ∀ v, v ∈ l ↔ ∃ t, v = .text t ∧ P t

/-- A question whose answer is `P`. -/
def Answers (P : Prop) (o : Except Exc Out) : Prop := ∃ b, o = .ok (.bool b) ∧ (b = true ↔ P)

/-- A question for two sets. -/
def Compares (x : Operand) (P : Prop) (o : Except Exc Out) : Prop := match x with
  | .list _ => o = .error .type
  | _ => Answers P o

/-- The tag `t` is put into the set. -/
def Adds (m : Msg) (t : Str) (e : Except Exc Out) (m' : Msg) (r : Out) : Prop :=
  if m.writable = false then m' = m ∧ e = .error (.notmuch .readOnly)
  else if t.length > 200 then m' = m ∧ e = .error (.notmuch .tagTooLong)
  else m' = { m with tags := fun x => m.tags x ∨ x = t } ∧ e = .ok r

/-- The tag `t` is taken out of the set. -/
def Drops (m : Msg) (t : Str) (e : Except Exc Out) (m' : Msg) (r : Out) : Prop :=
  if m.writable = false then m' = m ∧ e = .error (.notmuch .readOnly)
  else if t.length > 200 then m' = m ∧ e = .error (.notmuch .tagTooLong)
  else m' = { m with tags := fun x => m.tags x ∧ x ≠ t } ∧ e = .ok r

/-- The tags in `C` are changed so that the tags are `P`, if all of `C` are allowed and there is one only if the database is writable; otherwise it raises, and what is not in
`C` is as it was. -/
def Changes (m : Msg) (C P : Str → Prop) (o : Except Exc Out) (m' : Msg) : Prop :=
  ((m.writable = true ∨ ∀ t, ¬ C t) ∧ (∀ t, C t → t.length ≤ 200) ∧ o = .ok .unit ∧ m' = { m with tags := P }) ∨
  (m.writable = false ∧ (∃ t, C t) ∧ o = .error (.notmuch .readOnly) ∧ m' = m) ∨
  (m.writable = true ∧ (∃ t, C t ∧ t.length > 200) ∧ o = .error (.notmuch .tagTooLong) ∧
    ∃ D : Str → Prop, m' = { m with tags := D } ∧ ∀ t, (¬ C t → (D t ↔ m.tags t)) ∧ (C t → D t → m.tags t ∨ P t) ∧ (C t → m.tags t → P t → D t))

/-- All tags are taken out. -/
def Clears (m : Msg) (o : Except Exc Out) (m' : Msg) : Prop :=
  if m.writable = false then m' = m ∧ o = .error (.notmuch .readOnly) else m' = { m with tags := fun _ => False } ∧ o = .ok .unit

/-- The properties become `P`, unless the database is read-only. -/
def Sets (m : Msg) (P : Str → Str → Prop) (o : Except Exc Out) (m' : Msg) (r : Out) : Prop :=
  if m.writable = false then m' = m ∧ o = .error (.notmuch .readOnly) else m' = { m with props := P } ∧ o = .ok r

/-- `w` is the first of the values of the key. -/
def First (m : Msg) (k w : Str) : Prop := m.props k w ∧ ∀ w', m.props k w' → LexLe w w'

/-- What an operation must give, and the message after it. -/
def Meets (m : Msg) (op : Op) (o : Except Exc Out) (m' : Msg) : Prop :=
  match op with
  | .len => m' = m ∧ ∃ l : List Str, l.Nodup ∧ (∀ t, t ∈ l ↔ m.tags t) ∧ o = .ok (.num l.length)
  | .iter => m' = m ∧ ∃ l, Sorted l ∧ (∀ t, t ∈ l ↔ m.tags t) ∧ o = .ok (.vals (l.map .text))
  | .iterRaw => m' = m ∧ ∃ l, Sorted l ∧ (∀ t, t ∈ l ↔ m.tags t) ∧ o = .ok (.raws l)
  | .contains v => m' = m ∧ Answers (∃ t, v.Names t ∧ m.tags t) o
  | .eq x => m' = m ∧ (match x with
    | .set _ => o = .error .attribute
    | .list _ => o = .error .attribute
    | x => Answers (∀ t, m.tags t ↔ x.Has m t) o)
  | .le x => m' = m ∧ Compares x (∀ t, m.tags t → x.Has m t) o
  | .lt x => m' = m ∧ Compares x ((∀ t, m.tags t → x.Has m t) ∧ ∃ t, x.Has m t ∧ ¬ m.tags t) o
  | .ge x => m' = m ∧ Compares x (∀ t, x.Has m t → m.tags t) o
  | .gt x => m' = m ∧ Compares x ((∀ t, x.Has m t → m.tags t) ∧ ∃ t, m.tags t ∧ ¬ x.Has m t) o
  | .disjoint x => m' = m ∧ Answers (∀ t, ¬ (m.tags t ∧ x.Has m t)) o
  | .and x => m' = m ∧ ∃ l, o = .ok (.set l) ∧ SetOf l (fun t => m.tags t ∧ x.Has m t)
  | .or x => m' = m ∧ ∃ l, o = .ok (.set l) ∧ SetOf l (fun t => m.tags t ∨ x.Has m t)
  | .sub x => m' = m ∧ ∃ l, o = .ok (.set l) ∧ SetOf l (fun t => m.tags t ∧ ¬ x.Has m t)
  | .xor x => m' = m ∧ ∃ l, o = .ok (.set l) ∧ SetOf l (fun t => (m.tags t ∧ ¬ x.Has m t) ∨ (x.Has m t ∧ ¬ m.tags t))
  | .add v => ∃ t, v.Names t ∧ Adds m t o m' .unit
  | .discard v => ∃ t, v.Names t ∧ Drops m t o m' .unit
  | .remove v => ∃ t, v.Names t ∧ ((m.tags t ∧ Drops m t o m' .unit) ∨ (¬ m.tags t ∧ m' = m ∧ o = .error .key))
  | .pop => ((∀ t, ¬ m.tags t) ∧ m' = m ∧ o = .error .key) ∨ ∃ t, m.tags t ∧ (∀ t', m.tags t' → LexLe t t') ∧ Drops m t o m' (.val (.text t))
  | .clear => Clears m o m'
  | .ior x => Changes m (fun t => x.Has m t) (fun t => m.tags t ∨ x.Has m t) o m'
  | .iand x => Changes m (fun t => m.tags t ∧ ¬ x.Has m t) (fun t => m.tags t ∧ x.Has m t) o m'
  | .isub x => match x with
    | .it => Clears m o m'
    | x => Changes m (fun t => x.Has m t) (fun t => m.tags t ∧ ¬ x.Has m t) o m'
  | .ixor x => match x with
    | .it => Clears m o m'
    | x => Changes m (fun t => x.Has m t) (fun t => (m.tags t ∧ ¬ x.Has m t) ∨ (x.Has m t ∧ ¬ m.tags t)) o m'
  | .propLen => m' = m ∧ ∃ l : List Pair, l.Nodup ∧ (∀ k v, (k, v) ∈ l ↔ m.props k v) ∧ o = .ok (.num l.length)
  | .keyIter => m' = m ∧ ∃ l : List Pair, l.Pairwise PairLe ∧ l.Nodup ∧ (∀ k v, (k, v) ∈ l ↔ m.props k v) ∧ o = .ok (.vals (l.map (fun p => .text p.1)))
  | .getitem k => m' = m ∧ ∃ t, k.Names t ∧ (((∀ w, ¬ m.props t w) ∧ o = .error .key) ∨ ∃ w, First m t w ∧ o = .ok (.val (.text w)))
  | .hasKey k => m' = m ∧ ∃ t, k.Names t ∧ Answers (∃ w, m.props t w) o
  | .keys => m' = m ∧ ∃ l, o = .ok (.set l) ∧ SetOf l (fun k => ∃ w, m.props k w)
  | .values => m' = m ∧ ∃ l, o = .ok (.set l) ∧ SetOf l (fun w => ∃ k, m.props k w)
  | .items => m' = m ∧ ∃ l : List (Val × Val), o = .ok (.pairSet l) ∧ l.Nodup ∧ ∀ a b, (a, b) ∈ l ↔ ∃ k w, a = .text k ∧ b = .text w ∧ m.props k w
  | .setitem k v => ∃ t w, k.Names t ∧ v.Names w ∧
    (if m.writable = true ∧ 61 ∈ t then m' = m ∧ o = .error (.notmuch .illegalArgument) else Sets m (PropOp.apply m.props (.add t w)) o m' .unit)
  | .delitem k => ∃ t, k.Names t ∧ Sets m (fun k w => m.props k w ∧ k ≠ t) o m' .unit
  | .removeProp k v => ∃ t w, k.Names t ∧ v.Names w ∧
    (if m.writable = true ∧ 61 ∈ t then m' = m ∧ o = .error (.notmuch .illegalArgument) else Sets m (PropOp.apply m.props (.remove t w)) o m' .unit)
  | .popProp k d => ∃ t, k.Names t ∧ (((∀ w, ¬ m.props t w) ∧ m' = m ∧ o = (match d with | some d => .ok (.val d) | none => .error .key)) ∨
      ∃ w, First m t w ∧ Sets m (PropOp.apply m.props (.remove t w)) o m' (.val (.text w)))
  | .popitem => ((∀ k w, ¬ m.props k w) ∧ m' = m ∧ o = .error .key) ∨
      ∃ k w, First m k w ∧ (∀ k' w', m.props k' w' → LexLe k k') ∧ Sets m (PropOp.apply m.props (.remove k w)) o m' (.pair (.text k) (.text w))
  | .clearProps => Sets m (fun _ _ => False) o m' .unit
  | .getall p e => m' = m ∧ ∃ t, p.Names t ∧ ∃ l : List Pair, l.Pairwise PairLe ∧ l.Nodup ∧ (∀ k v, (k, v) ∈ l ↔ m.props k v ∧ Matches t e k) ∧
      o = .ok (.list (l.map (fun p => (.text p.1, .text p.2))))
  | .setdefault k d => ∃ t w, k.Names t ∧ d.Names w ∧ ((∃ w', First m t w' ∧ m' = m ∧ o = .ok (.val (.text w'))) ∨ ((∀ w', ¬ m.props t w') ∧
      (if m.writable = true ∧ 61 ∈ t then m' = m ∧ o = .error (.notmuch .illegalArgument) else Sets m (PropOp.apply m.props (.add t w)) o m' (.val d))))

/-- What a program must get. -/
def MeetsAll : Msg → List Op → List (Except Exc Out) → Msg → Prop
  | m, [], [], m' => m' = m
  | m, c :: cs, r :: rs, m' => ∃ m1, Meets m c r m1 ∧ MeetsAll m1 cs rs m'
  | _, _, _, _ => False

/-- The names can be decoded. -/
structure Readable (m : Msg) : Prop where
  tags : ∀ t, m.tags t → Valid t
  keys : ∀ k w, m.props k w → Valid k ∧ Valid w

/-- The argument is a `str` that can be encoded, or the `bytes` of one. -/
def Val.Ok (v : Val) : Prop := ∃ t, v.Names t ∧ Valid t

/-- The arguments are such; the keys and the values of properties are short enough, and keys do not have `=` where the library takes that for the end of the key. -/
def Op.Ok : Op → Prop
  | .contains v => ∀ n, v ≠ .lone n
  | .eq x | .le x | .lt x | .ge x | .gt x | .disjoint x | .and x | .or x | .sub x | .xor x | .ior x | .iand x | .isub x | .ixor x => x.Ok
  | .add v | .discard v | .remove v => v.Ok
  | .getitem k | .hasKey k | .popProp k _ | .getall k _ => k.Ok
  | .delitem k => ∃ t, k.Names t ∧ Valid t ∧ 61 ∉ t
  | .setitem k v | .removeProp k v | .setdefault k v => ∃ t w, k.Names t ∧ v.Names w ∧ Valid t ∧ Valid w ∧ t.length + w.length ≤ 235
  | _ => True

end Notmuch.PyColl
