import Verif.Spec.Message
import Verif.Proofs.TermList
import Verif.Props.StringMap

/-! # What a message object remembers is what its document says -/

namespace Notmuch.Message

open Notmuch.TermList
open Notmuch.StringMap (Pair Map cmppair)
open Notmuch.StringMapSpec (LexLe PairLe Matches QSort walk)

/-- The values of the fields that are remembered. -/
structure Vals where
  g : List Str
  k : List Str
  q : List Str
  t : List Str
  f : List Str
  p : List Str

/-- The values in a document. -/
def vals (terms : List Str) : Vals :=
  ⟨valuesWith (bs "G") terms, valuesWith (bs "K") terms, valuesWith (bs "Q") terms, valuesWith (bs "T") terms,
   valuesWith (bs "XFDIRENTRY") terms, valuesWith (bs "XPROPERTY") terms⟩

/-- The type, from the values. -/
def ghostVal (t : List Str) : Option Bool :=
  match t.head? with
  | some v => if v = bs "mail" then some false else if v = bs "ghost" then some true else none
  | none => none

theorem ghostOf_vals (terms : List Str) : ghostOf terms = ghostVal (vals terms).t := rfl

/-- The names that the entries stand for. -/
def names (W : World) (data : Str) (es : List Str) (l : List Str) : Prop :=
  (es = [] ∧ l = [data]) ∨ (es ≠ [] ∧ expand W es [] = .all l)

/-- A map of properties with the values `ps`. -/
structure PMap (ps : List Str) (m : Map) : Prop where
  nodup : m.pairs.Nodup
  key : ∀ p ∈ m.pairs, 61 ∉ p.1
  mem : ∀ s, s ∈ ps ↔ ∃ p ∈ m.pairs, s = p.1 ++ bs "=" ++ p.2
  order : m.sorted = true → m.pairs.Pairwise PairLe

/-- All that is remembered is true. -/
structure Cache (W : World) (V : Vals) (h : Handle) : Prop where
  thread : h.md.threadId = none ∨ h.md.threadId = V.g.head?
  tags : h.md.tagList = none ∨ h.md.tagList = some V.k
  id : h.md.messageId = none ∨ h.md.messageId = V.q.head?
  ghost : h.md.ghost = none ∨ h.md.ghost = ghostVal V.t
  fterms : h.md.filenameTermList = none ∨ h.md.filenameTermList = some V.f
  pterms : h.md.propertyTermList = none ∨ h.md.propertyTermList = some V.p
  files : ∀ l, h.files = some l → names W h.data V.f l
  props : ∀ m, h.props = some m → PMap V.p m

/-- All is read. -/
structure Full (V : Vals) (h : Handle) : Prop where
  thread : h.md.threadId = V.g.head?
  tags : h.md.tagList = some V.k
  id : h.md.messageId = V.q.head?
  ghost : h.md.ghost = ghostVal V.t
  fterms : h.files = none → h.md.filenameTermList = some V.f
  pterms : h.props = none → h.md.propertyTermList = some V.p

/-- What reading does not change. -/
structure Same (h h' : Handle) : Prop where
  writable : h'.writable = h.writable
  view : h'.view = h.view
  stored : h'.stored = h.stored
  terms : h'.terms = h.terms
  data : h'.data = h.data
  frozen : h'.frozen = h.frozen
  modified : h'.modified = h.modified

theorem Same.refl (h : Handle) : Same h h := ⟨rfl, rfl, rfl, rfl, rfl, rfl, rfl⟩
theorem Same.trans {a b c : Handle} (h1 : Same a b) (h2 : Same b c) : Same a c :=
  ⟨h2.1.trans h1.1, h2.2.trans h1.2, h2.3.trans h1.3, h2.4.trans h1.4, h2.5.trans h1.5, h2.6.trans h1.6, h2.7.trans h1.7⟩

theorem or_of {α : Type} {o v : Option α} (h : o = none ∨ o = v) : o.or v = v := by
  rcases h with rfl | rfl
  · rfl
  · cases o <;> rfl

theorem getD_of {α : Type} {o : Option α} {v : α} (h : o = none ∨ o = some v) : o.getD v = v := by
  rcases h with rfl | rfl <;> rfl

theorem ensure_spec {W : World} (hW : SortsTags W.sortTags) {h : Handle} (hs : Sorted h.terms) (hg : ghostVal (vals h.terms).t ≠ none)
    (hc : Cache W (vals h.terms) h) (b : Bool) :
    ∃ h', ensure W b h = some h' ∧ Same h h' ∧ Cache W (vals h.terms) h' ∧ h'.files = h.files ∧ h'.props = h.props ∧ h'.mflags = h.mflags ∧
      ((b = true ∧ h' = h) ∨ Full (vals h.terms) h') := by
  unfold ensure
  by_cases hb : (b && decide (h.lastView ≥ h.view)) = true
  · rw [if_pos hb]
    refine ⟨h, rfl, Same.refl h, hc, rfl, rfl, rfl, .inl ⟨?_, rfl⟩⟩
    rw [Bool.and_eq_true] at hb; exact hb.1
  · rw [if_neg hb, ensureMetadata_spec hW hs]
    have hgh : (known h).ghost.or (ghostOf h.terms) = ghostVal (vals h.terms).t := by
      rw [ghostOf_vals]; exact or_of hc.ghost
    cases hgv : ghostVal (vals h.terms).t with
    | none => exact absurd hgv hg
    | some g =>
      rw [hgh, hgv, Option.map_some]
      refine ⟨_, rfl, ⟨rfl, rfl, rfl, rfl, rfl, rfl, rfl⟩, ?_, rfl, rfl, rfl, .inr ?_⟩
      · refine ⟨.inr (or_of hc.thread), .inr (congrArg some (getD_of hc.tags)), .inr (or_of hc.id), .inr hgv.symm, ?_, ?_, hc.files, hc.props⟩
        · show (if h.files.isSome then h.md.filenameTermList else _) = none ∨ (if h.files.isSome then h.md.filenameTermList else _) = _
          split
          · exact hc.fterms
          · rename_i hf
            right
            show some ((if h.files.isSome then some [] else h.md.filenameTermList).getD _) = _
            rw [if_neg hf]; exact congrArg some (getD_of hc.fterms)
        · show (if h.props.isSome then h.md.propertyTermList else _) = none ∨ (if h.props.isSome then h.md.propertyTermList else _) = _
          split
          · exact hc.pterms
          · rename_i hf
            right
            show some ((if h.props.isSome then some [] else h.md.propertyTermList).getD _) = _
            rw [if_neg hf]; exact congrArg some (getD_of hc.pterms)
      · refine ⟨or_of hc.thread, congrArg some (getD_of hc.tags), or_of hc.id, hgv.symm, ?_, ?_⟩
        · intro hf
          show (if h.files.isSome then h.md.filenameTermList else some ((if h.files.isSome then some [] else h.md.filenameTermList).getD _)) = _
          have hf : ¬ h.files.isSome = true := by rw [show h.files = none from hf]; decide
          rw [if_neg hf, if_neg hf]; exact congrArg some (getD_of hc.fterms)
        · intro hf
          show (if h.props.isSome then h.md.propertyTermList else some ((if h.props.isSome then some [] else h.md.propertyTermList).getD _)) = _
          have hf : ¬ h.props.isSome = true := by rw [show h.props = none from hf]; decide
          rw [if_neg hf, if_neg hf]; exact congrArg some (getD_of hc.pterms)

/-- The prefixes of the terms that the calls change. -/
def changing : List Str := [bs "K", bs "XPROPERTY", bs "XFDIRENTRY", bs "XFOLDER:", bs "P"]

/-- The object of a message, before it is written; `T` is the document as it was at first. -/
structure Pre (W : World) (T : List Str) (h : Handle) (m : Msg) : Prop where
  holds : Holds W h.terms m
  data : h.data = m.data
  writable : h.writable = m.writable
  frozen : h.frozen = m.frozen
  cache : Cache W (vals h.terms) h
  clean : h.modified = false → h.stored = h.terms
  other : ∀ x, (∀ p ∈ changing, ¬ p <+: x) → (x ∈ h.terms ↔ x ∈ T)
  readOnly : h.writable = false → h.terms = T ∧ h.stored = T

/-- The object of a message. -/
structure Inv (W : World) (T : List Str) (h : Handle) (m : Msg) : Prop extends Pre W T h m where
  thawed : h.frozen = 0 → h.stored = h.terms

theorem Pre.same {W : World} {T : List Str} {h h' : Handle} {m : Msg} (i : Pre W T h m) (s : Same h h') (c : Cache W (vals h.terms) h') : Pre W T h' m := by
  refine ⟨s.terms ▸ i.holds, s.data.trans i.data, s.writable.trans i.writable, s.frozen.trans i.frozen, s.terms ▸ c, ?_, s.terms ▸ i.other, ?_⟩
  · rw [s.modified, s.stored, s.terms]; exact i.clean
  · rw [s.writable, s.stored, s.terms]; exact i.readOnly

theorem Inv.same {W : World} {T : List Str} {h h' : Handle} {m : Msg} (i : Inv W T h m) (s : Same h h') (c : Cache W (vals h.terms) h') : Inv W T h' m := by
  refine ⟨i.toPre.same s c, ?_⟩
  rw [s.frozen, s.stored, s.terms]; exact i.thawed

theorem Holds.ghostVal {W : World} {terms : List Str} {m : Msg} (h : Holds W terms m) : ghostVal (vals terms).t = some m.ghost := by
  show Message.ghostVal (valuesWith (bs "T") terms) = _
  rw [h.type]
  cases m.ghost <;> decide +kernel

theorem Inv.ensure {W : World} (hW : W.Ok) {T : List Str} {h : Handle} {m : Msg} (i : Inv W T h m) (b : Bool) :
    ∃ h', ensure W b h = some h' ∧ Same h h' ∧ Inv W T h' m ∧ h'.files = h.files ∧ h'.props = h.props ∧ h'.mflags = h.mflags ∧
      ((b = true ∧ h' = h) ∨ Full (vals h'.terms) h') := by
  obtain ⟨h', h1, h2, h3, h4, h5, h5', h6⟩ := ensure_spec hW.sortTags i.holds.sorted (by rw [i.holds.ghostVal]; simp) i.cache b
  exact ⟨h', h1, h2, i.same h2 h3, h4, h5, h5', h2.terms ▸ h6⟩

theorem parse_entry {id : Nat} {base : Str} : Directory.parseDirentry (dec id ++ bs ":" ++ base) = some (id, base) := by
  have e : bs ":" = [58] := by decide +kernel
  obtain ⟨h1, h2⟩ := takeWhile_dec id 58 base (by decide)
  unfold Directory.parseDirentry
  rw [e, List.append_assoc, List.singleton_append, h2, h1]
  simp only [decVal_dec]

theorem expand_spec {W : World} : ∀ (es : List Str), (∀ e ∈ es, ∃ f, nameOf W e f) → ∀ acc, ∃ l, expand W es acc = .all (acc ++ l) ∧ l.length = es.length ∧
    ∀ (i : Nat) e f, es[i]? = some e → l[i]? = some f → nameOf W e f
  | [], _, acc => ⟨[], by simp [expand], rfl, by simp⟩
  | e :: es, h, acc => by
    obtain ⟨f, hf⟩ := h e (by simp)
    obtain ⟨id, base, d, rfl, hd, hfe⟩ := hf
    obtain ⟨l, h1, h2, h3⟩ := expand_spec es (fun e he => h e (by simp [he])) (acc ++ [filename W d base])
    refine ⟨filename W d base :: l, ?_, by simp [h2], ?_⟩
    · rw [expand, parse_entry]
      simp only [hd]
      rw [h1, List.append_assoc]; rfl
    · intro i e f he hf
      cases i with
      | zero =>
        simp only [List.getElem?_cons_zero, Option.some.injEq] at he hf
        subst he; subst hf
        refine ⟨id, base, d, rfl, hd, ?_⟩
        have e47 : bs "/" = [47] := by decide +kernel
        unfold filename
        rw [e47]
        by_cases h0 : d = []
        · simp [h0]
        · simp [h0]
      | succ i =>
        rw [List.getElem?_cons_succ] at he hf
        exact h3 i e f he hf

theorem Inv.fileNames {W : World} {T : List Str} {h : Handle} {m : Msg} (i : Inv W T h m) {l : List Str} (hn : names W h.data (vals h.terms).f l) : FileNames W m l := by
  refine ⟨(vals h.terms).f, valuesWith_sorted i.holds.sorted, ?_, ?_⟩
  · intro e; show e ∈ valuesWith _ _ ↔ _; rw [mem_valuesWith]; exact i.holds.files e
  · rcases hn with ⟨h1, h2⟩ | ⟨h1, h2⟩
    · exact .inl ⟨h1, i.data ▸ h2⟩
    · refine .inr ⟨h1, ?_⟩
      obtain ⟨l', h3, h4, h5⟩ := expand_spec (W := W) (vals h.terms).f (by
        intro e he
        refine i.holds.dirs e ((i.holds.files e).1 ?_)
        have : e ∈ valuesWith (bs "XFDIRENTRY") h.terms := he
        rwa [mem_valuesWith] at this) []
      rw [h3, List.nil_append, Expanded.all.injEq] at h2
      subst h2
      exact ⟨h4, h5⟩

theorem Cache.setFiles {W : World} {V : Vals} {h : Handle} (c : Cache W V h) {l : List Str} (hl : names W h.data V.f l) :
    Cache W V { h with files := some l } ∧ Cache W V { h with files := some l, md := { h.md with filenameTermList := none } } := by
  have hf : ∀ l', some l = some l' → names W h.data V.f l' := by
    intro l' e; rw [Option.some.injEq] at e; exact e ▸ hl
  exact ⟨⟨c.thread, c.tags, c.id, c.ghost, c.fterms, c.pterms, hf, c.props⟩, ⟨c.thread, c.tags, c.id, c.ghost, .inl rfl, c.pterms, hf, c.props⟩⟩

theorem Inv.ensureFiles {W : World} (hW : W.Ok) {T : List Str} {h : Handle} {m : Msg} (i : Inv W T h m) :
    ∃ h' l, ensureFiles W h = some (h', true) ∧ Same h h' ∧ Inv W T h' m ∧ h'.files = some l ∧ FileNames W m l ∧ h'.mflags = h.mflags := by
  unfold Message.ensureFiles
  cases hf : h.files with
  | some l =>
    rw [Option.isSome_some, if_pos rfl]
    exact ⟨h, l, rfl, Same.refl h, i, hf, i.fileNames (i.cache.files l hf), rfl⟩
  | none =>
    rw [if_neg (by simp)]
    obtain ⟨h1, e1, s1, i1, f1, _, q1, hr⟩ := i.ensure hW h.md.filenameTermList.isSome
    rw [e1]
    have hft : h1.md.filenameTermList = some (vals h1.terms).f := by
      rcases hr with ⟨hb, rfl⟩ | hr
      · rcases i.cache.fterms with h2 | h2
        · rw [h2] at hb; exact absurd hb (by simp)
        · exact h2
      · exact hr.fterms (f1.trans hf)
    have hexp : ∃ l, (vals h1.terms).f ≠ [] → expand W (vals h1.terms).f [] = .all l := by
      by_cases h0 : (vals h1.terms).f = []
      · exact ⟨[], fun h => absurd h0 h⟩
      · obtain ⟨l', h3, h4, h5⟩ := expand_spec (W := W) (vals h1.terms).f (by
          intro e he
          refine i1.holds.dirs e ((i1.holds.files e).1 ?_)
          have : e ∈ valuesWith (bs "XFDIRENTRY") h1.terms := he
          rwa [mem_valuesWith] at this) []
        exact ⟨l', fun _ => by rw [h3]; rfl⟩
    cases hv : (vals h1.terms).f with
    | nil =>
      rw [hv] at hft
      simp only [hft]
      have hn : names W h1.data (vals h1.terms).f [h1.data] := .inl ⟨hv, rfl⟩
      have hs : Same h { h1 with files := some [h1.data] } := ⟨s1.1, s1.2, s1.3, s1.4, s1.5, s1.6, s1.7⟩
      refine ⟨_, [h1.data], rfl, hs, i.same hs ?_, rfl, i1.fileNames hn, q1⟩
      rw [← s1.terms]; exact (i1.cache.setFiles hn).1
    | cons e es =>
      obtain ⟨l, hl⟩ := hexp
      have hl := hl (by rw [hv]; simp)
      have hn : names W h1.data (vals h1.terms).f l := .inr ⟨by rw [hv]; simp, hl⟩
      rw [hv] at hft hl
      simp only [hft, hl]
      have hs : Same h { h1 with files := some l, md := { h1.md with filenameTermList := none } } := ⟨s1.1, s1.2, s1.3, s1.4, s1.5, s1.6, s1.7⟩
      refine ⟨_, l, rfl, hs, i.same hs ?_, rfl, i1.fileNames hn, q1⟩
      rw [← s1.terms]; exact (i1.cache.setFiles hn).2

theorem FileNames.ne_nil {W : World} {m : Msg} {l : List Str} (h : FileNames W m l) : l ≠ [] := by
  obtain ⟨es, _, _, h | ⟨h1, h2, _⟩⟩ := h
  · rw [h.2]; simp
  · intro e; rw [e] at h2; exact h1 (List.length_eq_zero_iff.1 h2.symm)

/-! ## Properties -/

theorem prop_inj {a b : Pair} (ha : 61 ∉ a.1) (hb : 61 ∉ b.1) (h : a.1 ++ bs "=" ++ a.2 = b.1 ++ bs "=" ++ b.2) : a = b := by
  have h1 := splitProperty_eq (v := a.2) ha
  rw [h, splitProperty_eq hb, Option.some.injEq] at h1
  exact h1.symm

theorem pmap_new {W : World} {T : List Str} {h : Handle} {m : Msg} (i : Inv W T h m) : ∃ mp, propertyMap (vals h.terms).p StringMap.create = some mp ∧ PMap (vals h.terms).p mp := by
  have hsort : Sorted (vals h.terms).p := valuesWith_sorted i.holds.sorted
  have hmem : ∀ s, s ∈ (vals h.terms).p ↔ ∃ k v, m.props k v ∧ s = k ++ bs "=" ++ v := by
    intro s; show s ∈ valuesWith _ _ ↔ _; rw [mem_valuesWith]; exact i.holds.props s
  obtain ⟨ps, h1, h2⟩ := exists_pairs (vals h.terms).p (by
    intro s hs
    obtain ⟨k, v, h1, h2⟩ := (hmem s).1 hs
    exact ⟨k, v, i.holds.propKeys k v h1, h2⟩)
  have hnd : ((ps.map (fun p => p.1 ++ bs "=" ++ p.2))).Nodup := h1 ▸ sorted_nodup hsort
  refine ⟨_, by rw [h1]; exact propertyMap_eq ps _ h2, ?_⟩
  have hp : (ps.foldl (fun m p => StringMap.append m p.1 p.2) StringMap.create).pairs = ps := by rw [foldl_append_pairs]; simp [StringMap.create]
  refine ⟨?_, ?_, ?_, ?_⟩
  · rw [hp]; exact (List.Pairwise.of_map _ (fun a b hab e => hab (by rw [e])) hnd)
  · rw [hp]; exact h2
  · intro s; rw [hp, h1, List.mem_map]
    constructor
    · rintro ⟨p, hp, rfl⟩; exact ⟨p, hp, rfl⟩
    · rintro ⟨p, hp, rfl⟩; exact ⟨p, hp, rfl⟩
  · rw [hp]
    intro hs
    cases ps with
    | nil => exact .nil
    | cons a ps =>
      exfalso
      have : ∀ (l : List Pair) (m : Map), m.sorted = false → (l.foldl (fun m p => StringMap.append m p.1 p.2) m).sorted = false := by
        intro l
        induction l with
        | nil => intro m h; exact h
        | cons a l ih => intro m h; exact ih _ rfl
      rw [List.foldl_cons, this ps _ rfl] at hs
      cases hs

theorem Inv.ensureProps {W : World} (hW : W.Ok) {T : List Str} {h : Handle} {m : Msg} (i : Inv W T h m) :
    ∃ h' mp, ensureProps W h = some (h', mp) ∧ Same h h' ∧ Inv W T h' m ∧ h'.props = some mp ∧ PMap (vals h'.terms).p mp := by
  unfold Message.ensureProps
  cases hf : h.props with
  | some mp => exact ⟨h, mp, rfl, Same.refl h, i, hf, i.cache.props mp hf⟩
  | none =>
    obtain ⟨h1, e1, s1, i1, _, f1, _, hr⟩ := i.ensure hW h.md.propertyTermList.isSome
    simp only [e1]
    have hft : h1.md.propertyTermList = some (vals h1.terms).p := by
      rcases hr with ⟨hb, rfl⟩ | hr
      · rcases i.cache.pterms with h2 | h2
        · rw [h2] at hb; exact absurd hb (by simp)
        · exact h2
      · exact hr.pterms (f1.trans hf)
    obtain ⟨mp, hm, hp⟩ := pmap_new i1
    simp only [hft, hm]
    have hs : Same h { h1 with props := some mp, md := { h1.md with propertyTermList := none } } := ⟨s1.1, s1.2, s1.3, s1.4, s1.5, s1.6, s1.7⟩
    refine ⟨_, mp, rfl, hs, i.same hs ?_, rfl, hp⟩
    have c := i1.cache
    rw [← s1.terms]
    refine ⟨c.thread, c.tags, c.id, c.ghost, c.fterms, .inl rfl, c.files, ?_⟩
    intro mp' e; obtain rfl := Option.some.inj e; exact hp

theorem pmap_iff {W : World} {T : List Str} {h : Handle} {m : Msg} (i : Inv W T h m) {mp : Map} (hp : PMap (vals h.terms).p mp) (k v : Str) : (k, v) ∈ mp.pairs ↔ m.props k v := by
  have hmem : ∀ s, s ∈ (vals h.terms).p ↔ ∃ k v, m.props k v ∧ s = k ++ bs "=" ++ v := by
    intro s; show s ∈ valuesWith _ _ ↔ _; rw [mem_valuesWith]; exact i.holds.props s
  constructor
  · intro h1
    obtain ⟨k', v', h2, h3⟩ := (hmem _).1 ((hp.mem (k ++ bs "=" ++ v)).2 ⟨(k, v), h1, rfl⟩)
    have := prop_inj (a := (k, v)) (b := (k', v')) (hp.key _ h1) (i.holds.propKeys _ _ h2) h3
    rw [Prod.mk.injEq] at this
    rw [this.1, this.2]; exact h2
  · intro h1
    obtain ⟨p, h2, h3⟩ := (hp.mem (k ++ bs "=" ++ v)).1 ((hmem _).2 ⟨k, v, h1, rfl⟩)
    have := prop_inj (a := (k, v)) (b := p) (i.holds.propKeys _ _ h1) (hp.key _ h2) h3
    rw [this]; exact h2

/-- The map after it was sorted. -/
theorem pmap_sort {qs : List Pair → List Pair} (hq : QSort cmppair qs) {ps : List Str} {mp : Map} (h : PMap ps mp) :
    PMap ps (StringMap.sort qs mp) ∧ (StringMap.sort qs mp).pairs.Pairwise PairLe ∧ (StringMap.sort qs mp).pairs.Perm mp.pairs := by
  have key : (StringMap.sort qs mp).pairs.Pairwise PairLe ∧ (StringMap.sort qs mp).pairs.Perm mp.pairs := by
    unfold StringMap.sort
    split
    · rename_i h0; rw [List.length_eq_zero_iff.1 h0]; exact ⟨.nil, .refl _⟩
    · split
      · rename_i h1; exact ⟨h.order h1, .refl _⟩
      · exact ⟨(hq.sorted _).imp StringMap.cmppair_le, hq.perm _⟩
  refine ⟨⟨key.2.symm.nodup h.nodup, ?_, ?_, fun _ => key.1⟩, key.1, key.2⟩
  · intro p hp; exact h.key p (key.2.mem_iff.1 hp)
  · intro s; rw [h.mem]
    constructor
    · rintro ⟨p, hp, e⟩; exact ⟨p, key.2.mem_iff.2 hp, e⟩
    · rintro ⟨p, hp, e⟩; exact ⟨p, key.2.mem_iff.1 hp, e⟩

theorem pmap_inv {ps : List Str} {mp : Map} (h : PMap ps mp) : StringMap.Inv mp := by
  intro hs
  refine (h.order hs).imp ?_
  rintro a b (⟨_, h⟩ | ⟨h, _⟩)
  · exact h
  · rw [h]; exact StringMap.lexLe_refl _

theorem iterate_inv {qs : List Pair → List Pair} (hq : QSort cmppair qs) {m : Map} (hm : StringMap.Inv m) (key : Str) (exact : Bool) :
    ∃ it, StringMap.iterCreate qs m key exact = some (StringMap.sort qs m, it) ∧
      ∀ n ≥ m.pairs.length, walk (StringMap.sort qs m) n it = (StringMap.sort qs m).pairs.filter (fun p => StringMap.stringCmp key p.1 exact = .eq) := by
  obtain ⟨h1, h2, h3⟩ := StringMap.sort_spec hq hm
  obtain ⟨c, hc, hn, hs⟩ := StringMap.bsearchFirst_spec h1 key exact
  refine ⟨⟨c, exact, key⟩, by simp [StringMap.iterCreate, hc], ?_⟩
  intro n hnl
  cases c with
  | none =>
    rw [List.filter_eq_nil_iff.2]
    · cases n <;> simp [walk, StringMap.iterPair, StringMap.iterValid]
    · intro p hp
      have := hn rfl p hp
      rw [← StringMap.stringCmp_eq] at this
      simpa using this
  | some i =>
    obtain ⟨p, hp, hmt, hb⟩ := hs i rfl
    rw [StringMap.walk_eq _ _ _ n i (by rw [h2.length_eq]; omega), StringMap.filter_from_first h1 key exact i hb]
    intro p' hp'
    rw [hp] at hp'
    rw [← Option.some.inj hp', StringMap.stringCmp_eq]
    exact hmt

theorem Inv.setProps {W : World} {T : List Str} {h : Handle} {m : Msg} (i : Inv W T h m) {mp : Map} (hp : PMap (vals h.terms).p mp) : Inv W T { h with props := some mp } m := by
  refine i.same ⟨rfl, rfl, rfl, rfl, rfl, rfl, rfl⟩ ?_
  have c := i.cache
  refine ⟨c.thread, c.tags, c.id, c.ghost, c.fterms, c.pterms, c.files, ?_⟩
  intro mp' e; obtain rfl := Option.some.inj e; exact hp

theorem Inv.getProperties {W : World} (hW : W.Ok) {T : List Str} {h : Handle} {m : Msg} (i : Inv W T h m) (key : Str) (exact : Bool) :
    ∃ h' l, getProperties W key exact h = some (h', l) ∧ Same h h' ∧ Inv W T h' m ∧ l.Pairwise PairLe ∧ l.Nodup ∧
      ∀ k v, (k, v) ∈ l ↔ m.props k v ∧ Matches key exact k := by
  obtain ⟨h1, mp, e1, s1, i1, hp, hpm⟩ := i.ensureProps hW
  obtain ⟨it, e2, e3⟩ := iterate_inv hW.qs (pmap_inv hpm) key exact
  obtain ⟨hps, hord, hperm⟩ := pmap_sort hW.qs hpm
  unfold Message.getProperties
  simp only [e1, e2]
  have i2 := i1.setProps hps
  refine ⟨_, _, rfl, ⟨s1.1, s1.2, s1.3, s1.4, s1.5, s1.6, s1.7⟩, i2, ?_, ?_, ?_⟩
  · rw [e3 _ (by rw [hperm.length_eq]; omega)]; exact hord.filter _
  · rw [e3 _ (by rw [hperm.length_eq]; omega)]; exact hps.nodup.filter _
  · intro k v
    rw [e3 _ (by rw [hperm.length_eq]; omega), List.mem_filter, pmap_iff i2 hps]
    simp only [decide_eq_true_eq, StringMap.stringCmp_eq]

theorem Inv.getProperty {W : World} (hW : W.Ok) {T : List Str} {h : Handle} {m : Msg} (i : Inv W T h m) (key : Str) :
    ∃ h' v, getProperty W key h = some (h', .value v) ∧ Same h h' ∧ Inv W T h' m ∧ (v = none ↔ ∀ w, ¬ m.props key w) ∧
      ∀ w, v = some w → m.props key w ∧ ∀ w', m.props key w' → LexLe w w' := by
  obtain ⟨h1, mp, e1, s1, i1, hp, hpm⟩ := i.ensureProps hW
  obtain ⟨mp', r, e2, rfl, e3, e4, e5⟩ := Props.smGet_spec hW.qs (pmap_inv hpm) key
  obtain ⟨hps, hord, hperm⟩ := pmap_sort hW.qs hpm
  unfold Message.getProperty
  simp only [e1, e2]
  have i2 := i1.setProps hps
  refine ⟨_, r, rfl, ⟨s1.1, s1.2, s1.3, s1.4, s1.5, s1.6, s1.7⟩, i2, ?_, ?_⟩
  · constructor
    · intro hr w hw
      exact e4 hr w ((pmap_iff i1 hpm _ _).2 hw)
    · intro hw
      cases r with
      | none => rfl
      | some v => exact absurd ((pmap_iff i1 hpm _ _).1 (e3 v rfl)) (hw v)
  · intro w hw
    refine ⟨(pmap_iff i1 hpm _ _).1 (e3 w hw), ?_⟩
    intro w' hw'
    obtain ⟨j, hj, hbefore⟩ := e5 w hw
    have hm' : (key, w') ∈ (StringMap.sort W.qs mp).pairs := (pmap_iff i2 hps _ _).2 hw'
    obtain ⟨n, hn⟩ := List.mem_iff_getElem?.1 hm'
    have hkk : StringMap.stringCmp key key true = .eq := (StringMap.stringCmp_eq key key true).2 (by simp [Matches])
    rcases Nat.lt_trichotomy j n with hlt | heq | hgt
    · rw [List.pairwise_iff_getElem] at hord
      obtain ⟨hj', hje⟩ := List.getElem?_eq_some_iff.1 hj
      obtain ⟨hn', hne⟩ := List.getElem?_eq_some_iff.1 hn
      have := hord j n hj' hn' hlt
      rw [hje, hne] at this
      rcases this with ⟨h, _⟩ | ⟨_, h⟩
      · exact absurd rfl h
      · exact h
    · rw [heq, hn, Option.some.injEq, Prod.mk.injEq] at hj
      rw [hj.2]; exact StringMap.lexLe_refl _
    · have := hbefore n _ hgt hn
      rw [hkk] at this; cases this

/-! ## Changes -/

/-- Only terms with this prefix changed. -/
structure Only (p : Str) (terms terms' : List Str) : Prop where
  sorted : Sorted terms'
  short : ∀ t ∈ terms', t.length ≤ 245
  rest : ∀ x, ¬ p <+: x → (x ∈ terms' ↔ x ∈ terms)

theorem Only.values {p : Str} {terms terms' : List Str} (o : Only p terms terms') (hs : Sorted terms) {q : Str} (h1 : p.isPrefixOf q = false) (h2 : q.isPrefixOf p = false) :
    (∀ v, q ++ v ∈ terms' ↔ q ++ v ∈ terms) ∧ valuesWith q terms' = valuesWith q terms := by
  have hn : ∀ v, ¬ p <+: q ++ v := by
    rintro v ⟨r, hr⟩
    rcases comparable hr with h | h
    · rw [List.isPrefixOf_iff_prefix.2 h] at h1; cases h1
    · rw [List.isPrefixOf_iff_prefix.2 h] at h2; cases h2
  refine ⟨fun v => o.rest _ (hn v), ?_⟩
  refine sorted_ext (valuesWith_sorted o.sorted) (valuesWith_sorted hs) ?_
  intro v
  rw [mem_valuesWith, mem_valuesWith]
  exact o.rest _ (hn v)

theorem only_add {p v : Str} {terms : List Str} (hs : Sorted terms) (hl : ∀ t ∈ terms, t.length ≤ 245) (hv : (p ++ v).length ≤ 245) : Only p terms (addTerm (p ++ v) terms) := by
  refine ⟨sorted_addTerm hs, ?_, ?_⟩
  · intro t ht
    rcases mem_addTerm.1 ht with rfl | ht
    · exact hv
    · exact hl t ht
  · intro x hx
    rw [mem_addTerm]
    constructor
    · rintro (rfl | h)
      · exact absurd (List.prefix_append _ _) hx
      · exact h
    · exact .inr

theorem only_remove {p v : Str} {terms : List Str} (hs : Sorted terms) (hl : ∀ t ∈ terms, t.length ≤ 245) : Only p terms (removeTerm (p ++ v) terms) := by
  refine ⟨sorted_removeTerm hs, fun t ht => hl t (mem_removeTerm.1 ht).1, ?_⟩
  intro x hx
  rw [mem_removeTerm]
  constructor
  · exact fun h => h.1
  · intro h
    refine ⟨h, ?_⟩
    rintro rfl
    exact hx (List.prefix_append _ _)

theorem only_filter {p q : Str} {terms : List Str} (hs : Sorted terms) (hl : ∀ t ∈ terms, t.length ≤ 245) (hq : p <+: q) :
    Only p terms (terms.filter (fun t => !q.isPrefixOf t)) := by
  refine ⟨sorted_filter _ hs, fun t ht => hl t (List.mem_filter.1 ht).1, ?_⟩
  intro x hx
  rw [List.mem_filter]
  constructor
  · exact fun h => h.1
  · intro h
    refine ⟨h, ?_⟩
    rw [Bool.not_eq_true', ← Bool.not_eq_true, List.isPrefixOf_iff_prefix]
    exact fun h => hx (hq.trans h)

theorem Pre.other' {W : World} {T : List Str} {h : Handle} {m : Msg} (i : Pre W T h m) {p : Str} (hp : p ∈ changing) {terms : List Str} (o : Only p h.terms terms) :
    ∀ x, (∀ p ∈ changing, ¬ p <+: x) → (x ∈ terms ↔ x ∈ T) := by
  intro x hx
  rw [o.rest x (hx p hp)]
  exact i.other x hx

/-- The tags changed. -/
theorem Pre.changeTags {W : World} {T : List Str} {h : Handle} {m : Msg} (i : Pre W T h m) {terms : List Str} (o : Only (bs "K") h.terms terms) {P : Str → Prop}
    (hP : ∀ t, bs "K" ++ t ∈ terms ↔ P t) {b : Bool} (hb : b = false → h.modified = false ∧ terms = h.terms) (hw : h.writable = true) :
    Pre W T (invalidate (bs "tag") { h with terms := terms, modified := b }) { m with tags := P } := by
  have e : invalidate (bs "tag") { h with terms := terms, modified := b } = { h with terms := terms, modified := b, md := { h.md with tagList := none } } := by
    simp only [invalidate, show ¬ (bs "tag" = bs "thread") by decide +kernel, show ¬ (bs "tag" = bs "type") by decide +kernel, show ¬ (bs "tag" = bs "file-direntry") by decide +kernel,
      show ¬ (bs "tag" = bs "property") by decide +kernel, show ¬ (bs "tag" = bs "replyto") by decide +kernel, if_false, if_true]
  rw [e]
  have hh := i.holds
  have v := fun (q : Str) => o.values hh.sorted (q := q)
  obtain ⟨_, vQ⟩ := v (bs "Q") (by decide +kernel) (by decide +kernel)
  obtain ⟨_, vG⟩ := v (bs "G") (by decide +kernel) (by decide +kernel)
  obtain ⟨_, vT⟩ := v (bs "T") (by decide +kernel) (by decide +kernel)
  obtain ⟨mP, vP⟩ := v (bs "XPROPERTY") (by decide +kernel) (by decide +kernel)
  obtain ⟨mF, vF⟩ := v (bs "XFDIRENTRY") (by decide +kernel) (by decide +kernel)
  have c := i.cache
  refine ⟨⟨o.sorted, o.short, vQ ▸ hh.id, vG ▸ hh.thread, vT ▸ hh.type, hP, hh.propKeys, fun s => (mP s).trans (hh.props s), fun e => (mF e).trans (hh.files e), hh.dirs⟩,
    i.data, i.writable, i.frozen, ?_, ?_, i.other' (by simp [changing]) o, ?_⟩
  · refine ⟨?_, .inl rfl, ?_, ?_, ?_, ?_, ?_, ?_⟩
    · show _ ∨ h.md.threadId = (valuesWith _ _).head?; rw [vG]; exact c.thread
    · show _ ∨ h.md.messageId = (valuesWith _ _).head?; rw [vQ]; exact c.id
    · show _ ∨ h.md.ghost = ghostVal (valuesWith _ _); rw [vT]; exact c.ghost
    · show _ ∨ h.md.filenameTermList = some (valuesWith _ _); rw [vF]; exact c.fterms
    · show _ ∨ h.md.propertyTermList = some (valuesWith _ _); rw [vP]; exact c.pterms
    · show ∀ l, h.files = some l → names W h.data (valuesWith _ _) l; rw [vF]; exact c.files
    · show ∀ m, h.props = some m → PMap (valuesWith _ _) m; rw [vP]; exact c.props
  · intro hb'
    obtain ⟨h1, h2⟩ := hb hb'
    show h.stored = terms
    rw [h2]; exact i.clean h1
  · intro hw'
    have hw' : h.writable = false := hw'
    rw [hw] at hw'; cases hw'

/-- The files changed. -/
theorem Pre.changeFiles {W : World} {T : List Str} {h : Handle} {m : Msg} (i : Pre W T h m) {terms : List Str} (o : Only (bs "XFDIRENTRY") h.terms terms) {P : Str → Prop}
    (hP : ∀ t, bs "XFDIRENTRY" ++ t ∈ terms ↔ P t) (hd : ∀ e, P e → ∃ f, nameOf W e f) {b : Bool} (hb : b = false → h.modified = false ∧ terms = h.terms) (hw : h.writable = true) :
    Pre W T (invalidate (bs "file-direntry") { h with terms := terms, modified := b }) { m with files := P } := by
  have e : invalidate (bs "file-direntry") { h with terms := terms, modified := b } = { h with terms := terms, modified := b, md := { h.md with filenameTermList := none }, files := none } := by
    simp only [invalidate, show ¬ (bs "file-direntry" = bs "thread") by decide +kernel, show ¬ (bs "file-direntry" = bs "type") by decide +kernel, show ¬ (bs "file-direntry" = bs "tag") by decide +kernel,
      show ¬ (bs "file-direntry" = bs "property") by decide +kernel, show ¬ (bs "file-direntry" = bs "replyto") by decide +kernel, if_false, if_true]
  rw [e]
  have hh := i.holds
  have v := fun (q : Str) => o.values hh.sorted (q := q)
  obtain ⟨_, vQ⟩ := v (bs "Q") (by decide +kernel) (by decide +kernel)
  obtain ⟨_, vG⟩ := v (bs "G") (by decide +kernel) (by decide +kernel)
  obtain ⟨_, vT⟩ := v (bs "T") (by decide +kernel) (by decide +kernel)
  obtain ⟨mP, vP⟩ := v (bs "XPROPERTY") (by decide +kernel) (by decide +kernel)
  obtain ⟨mK, vK⟩ := v (bs "K") (by decide +kernel) (by decide +kernel)
  have c := i.cache
  refine ⟨⟨o.sorted, o.short, vQ ▸ hh.id, vG ▸ hh.thread, vT ▸ hh.type, fun t => (mK t).trans (hh.tags t), hh.propKeys, fun s => (mP s).trans (hh.props s), hP, hd⟩,
    i.data, i.writable, i.frozen, ?_, ?_, i.other' (by simp [changing]) o, ?_⟩
  · refine ⟨?_, ?_, ?_, ?_, .inl rfl, ?_, ?_, ?_⟩
    · show _ ∨ h.md.threadId = (valuesWith _ _).head?; rw [vG]; exact c.thread
    · show _ ∨ h.md.tagList = some (valuesWith _ _); rw [vK]; exact c.tags
    · show _ ∨ h.md.messageId = (valuesWith _ _).head?; rw [vQ]; exact c.id
    · show _ ∨ h.md.ghost = ghostVal (valuesWith _ _); rw [vT]; exact c.ghost
    · show _ ∨ h.md.propertyTermList = some (valuesWith _ _); rw [vP]; exact c.pterms
    · intro l hl; cases hl
    · show ∀ m, h.props = some m → PMap (valuesWith _ _) m; rw [vP]; exact c.props
  · intro hb'
    obtain ⟨h1, h2⟩ := hb hb'
    show h.stored = terms
    rw [h2]; exact i.clean h1
  · intro hw'
    have hw' : h.writable = false := hw'
    rw [hw] at hw'; cases hw'

/-- The properties changed. -/
theorem Pre.changeProps {W : World} {T : List Str} {h : Handle} {m : Msg} (i : Pre W T h m) {terms : List Str} (o : Only (bs "XPROPERTY") h.terms terms) {P : Str → Str → Prop}
    (hP : ∀ s, bs "XPROPERTY" ++ s ∈ terms ↔ ∃ k v, P k v ∧ s = k ++ bs "=" ++ v) (hk : ∀ k v, P k v → 61 ∉ k) {b : Bool}
    (hb : b = false → h.modified = false ∧ terms = h.terms) (hw : h.writable = true) :
    Pre W T (invalidate (bs "property") { h with terms := terms, modified := b }) { m with props := P } := by
  have e : invalidate (bs "property") { h with terms := terms, modified := b } = { h with terms := terms, modified := b, md := { h.md with propertyTermList := none }, props := none } := by
    simp only [invalidate, show ¬ (bs "property" = bs "thread") by decide +kernel, show ¬ (bs "property" = bs "type") by decide +kernel, show ¬ (bs "property" = bs "tag") by decide +kernel,
      show ¬ (bs "property" = bs "file-direntry") by decide +kernel, show ¬ (bs "property" = bs "replyto") by decide +kernel, if_false, if_true]
  rw [e]
  have hh := i.holds
  have v := fun (q : Str) => o.values hh.sorted (q := q)
  obtain ⟨_, vQ⟩ := v (bs "Q") (by decide +kernel) (by decide +kernel)
  obtain ⟨_, vG⟩ := v (bs "G") (by decide +kernel) (by decide +kernel)
  obtain ⟨_, vT⟩ := v (bs "T") (by decide +kernel) (by decide +kernel)
  obtain ⟨mF, vF⟩ := v (bs "XFDIRENTRY") (by decide +kernel) (by decide +kernel)
  obtain ⟨mK, vK⟩ := v (bs "K") (by decide +kernel) (by decide +kernel)
  have c := i.cache
  refine ⟨⟨o.sorted, o.short, vQ ▸ hh.id, vG ▸ hh.thread, vT ▸ hh.type, fun t => (mK t).trans (hh.tags t), hk, hP, fun e => (mF e).trans (hh.files e), hh.dirs⟩,
    i.data, i.writable, i.frozen, ?_, ?_, i.other' (by simp [changing]) o, ?_⟩
  · refine ⟨?_, ?_, ?_, ?_, ?_, .inl rfl, ?_, ?_⟩
    · show _ ∨ h.md.threadId = (valuesWith _ _).head?; rw [vG]; exact c.thread
    · show _ ∨ h.md.tagList = some (valuesWith _ _); rw [vK]; exact c.tags
    · show _ ∨ h.md.messageId = (valuesWith _ _).head?; rw [vQ]; exact c.id
    · show _ ∨ h.md.ghost = ghostVal (valuesWith _ _); rw [vT]; exact c.ghost
    · show _ ∨ h.md.filenameTermList = some (valuesWith _ _); rw [vF]; exact c.fterms
    · show ∀ l, h.files = some l → names W h.data (valuesWith _ _) l; rw [vF]; exact c.files
    · intro l hl; cases hl
  · intro hb'
    obtain ⟨h1, h2⟩ := hb hb'
    show h.stored = terms
    rw [h2]; exact i.clean h1
  · intro hw'
    have hw' : h.writable = false := hw'
    rw [hw] at hw'; cases hw'

/-- The terms about directories changed. -/
theorem Pre.changeDirs {W : World} {T : List Str} {h : Handle} {m : Msg} (i : Pre W T h m) {p : Str} (hp : p = bs "XFOLDER:" ∨ p = bs "P") {terms : List Str} (o : Only p h.terms terms) {b : Bool}
    (hb : b = false → h.modified = false ∧ terms = h.terms) (hw : h.writable = true) : Pre W T { h with terms := terms, modified := b } m := by
  have hh := i.holds
  have v : ∀ q ∈ [bs "Q", bs "G", bs "T", bs "XFDIRENTRY", bs "K", bs "XPROPERTY"], (∀ v, q ++ v ∈ terms ↔ q ++ v ∈ h.terms) ∧ valuesWith q terms = valuesWith q h.terms := by
    intro q hq
    refine o.values hh.sorted ?_ ?_
    · have : ∀ p ∈ [bs "XFOLDER:", bs "P"], ∀ q ∈ [bs "Q", bs "G", bs "T", bs "XFDIRENTRY", bs "K", bs "XPROPERTY"], p.isPrefixOf q = false := by decide +kernel
      exact this p (by simpa using hp) q hq
    · have : ∀ p ∈ [bs "XFOLDER:", bs "P"], ∀ q ∈ [bs "Q", bs "G", bs "T", bs "XFDIRENTRY", bs "K", bs "XPROPERTY"], q.isPrefixOf p = false := by decide +kernel
      exact this p (by simpa using hp) q hq
  obtain ⟨_, vQ⟩ := v (bs "Q") (by simp)
  obtain ⟨_, vG⟩ := v (bs "G") (by simp)
  obtain ⟨_, vT⟩ := v (bs "T") (by simp)
  obtain ⟨mF, vF⟩ := v (bs "XFDIRENTRY") (by simp)
  obtain ⟨mK, vK⟩ := v (bs "K") (by simp)
  obtain ⟨mP, vP⟩ := v (bs "XPROPERTY") (by simp)
  have c := i.cache
  refine ⟨⟨o.sorted, o.short, vQ ▸ hh.id, vG ▸ hh.thread, vT ▸ hh.type, fun t => (mK t).trans (hh.tags t), hh.propKeys, fun s => (mP s).trans (hh.props s), fun e => (mF e).trans (hh.files e), hh.dirs⟩,
    i.data, i.writable, i.frozen, ?_, ?_, i.other' (by rcases hp with rfl | rfl <;> simp [changing]) o, ?_⟩
  · refine ⟨?_, ?_, ?_, ?_, ?_, ?_, ?_, ?_⟩
    · show _ ∨ h.md.threadId = (valuesWith _ _).head?; rw [vG]; exact c.thread
    · show _ ∨ h.md.tagList = some (valuesWith _ _); rw [vK]; exact c.tags
    · show _ ∨ h.md.messageId = (valuesWith _ _).head?; rw [vQ]; exact c.id
    · show _ ∨ h.md.ghost = ghostVal (valuesWith _ _); rw [vT]; exact c.ghost
    · show _ ∨ h.md.filenameTermList = some (valuesWith _ _); rw [vF]; exact c.fterms
    · show _ ∨ h.md.propertyTermList = some (valuesWith _ _); rw [vP]; exact c.pterms
    · show ∀ l, h.files = some l → names W h.data (valuesWith _ _) l; rw [vF]; exact c.files
    · show ∀ m, h.props = some m → PMap (valuesWith _ _) m; rw [vP]; exact c.props
  · intro hb'
    obtain ⟨h1, h2⟩ := hb hb'
    show h.stored = terms
    rw [h2]; exact i.clean h1
  · intro hw'
    have hw' : h.writable = false := hw'
    rw [hw] at hw'; cases hw'

theorem Pre.forgetProps {W : World} {T : List Str} {h : Handle} {m : Msg} (i : Pre W T h m) (hw : h.writable = true) : Pre W T (invalidate (bs "property") h) m :=
  i.changeProps (terms := h.terms) (b := h.modified) (P := m.props) ⟨i.holds.sorted, i.holds.short, fun _ _ => Iff.rfl⟩ i.holds.props i.holds.propKeys (fun h => ⟨h, rfl⟩) hw

theorem Pre.sync {W : World} {T : List Str} {h : Handle} {m : Msg} (i : Pre W T h m) (hw : h.writable = true) : Inv W T (sync h) m := by
  unfold Message.sync
  rw [if_neg (by simp [hw])]
  split
  · rename_i hm
    exact ⟨i, fun _ => i.clean hm⟩
  · have c := i.cache
    exact ⟨⟨i.holds, i.data, i.writable, i.frozen, ⟨c.thread, c.tags, c.id, c.ghost, c.fterms, c.pterms, c.files, c.props⟩, fun _ => rfl, i.other,
      fun h' => by have h' : h.writable = false := h'; rw [hw] at h'; cases h'⟩, fun _ => rfl⟩

theorem Pre.syncUnlessFrozen {W : World} {T : List Str} {h : Handle} {m : Msg} (i : Pre W T h m) (hw : h.writable = true) : Inv W T (syncUnlessFrozen h) m := by
  unfold Message.syncUnlessFrozen
  split
  · exact i.sync hw
  · rename_i hf
    exact ⟨i, fun h => absurd h hf⟩

theorem prefix_tag : prefixOf (bs "tag") = bs "K" := by decide +kernel
theorem prefix_property : prefixOf (bs "property") = bs "XPROPERTY" := by decide +kernel
theorem prefix_file : prefixOf (bs "file-direntry") = bs "XFDIRENTRY" := by decide +kernel
theorem prefix_folder : prefixOf (bs "folder") = bs "XFOLDER:" := by decide +kernel
theorem prefix_path : prefixOf (bs "path") = bs "P" := by decide +kernel

theorem invalidate_writable (n : Str) (h : Handle) : (invalidate n h).writable = h.writable := by
  simp only [invalidate, apply_ite Handle.writable, ite_self]

theorem invalidate_terms (n : Str) (h : Handle) : (invalidate n h).terms = h.terms := by
  simp only [invalidate, apply_ite Handle.terms, ite_self]

theorem removed_same {t : Str} {terms : List Str} (h : decide (t ∈ terms) = false) : removeTerm t terms = terms := by
  unfold removeTerm
  rw [List.filter_eq_self]
  intro x hx
  rw [decide_eq_true_eq]
  rintro rfl
  simp [hx] at h

theorem Pre.addTag {W : World} {T : List Str} {h : Handle} {m : Msg} (i : Pre W T h m) (hw : h.writable = true) {t : Str} (ht : t.length ≤ 244) :
    ∃ h', addTermTo (bs "tag") t h = some h' ∧ h'.writable = true ∧ Pre W T h' { m with tags := fun x => m.tags x ∨ x = t } := by
  have hl : (bs "K" ++ t).length ≤ 245 := by rw [List.length_append]; have : (bs "K").length = 1 := by decide +kernel
                                             omega
  unfold addTermTo
  rw [prefix_tag]
  simp only [show ¬ (bs "K" ++ t).length > 245 by omega, if_false]
  refine ⟨_, rfl, by rw [invalidate_writable]; exact hw, ?_⟩
  refine i.changeTags (only_add i.holds.sorted i.holds.short hl) ?_ (by simp) hw
  intro x
  rw [mem_addTerm, List.append_cancel_left_eq, i.holds.tags]
  exact or_comm

theorem Pre.removeTag {W : World} {T : List Str} {h : Handle} {m : Msg} (i : Pre W T h m) (hw : h.writable = true) {t : Str} (ht : t.length ≤ 244) :
    ∃ h', removeTermFrom (bs "tag") t h = some h' ∧ h'.writable = true ∧ Pre W T h' { m with tags := fun x => m.tags x ∧ x ≠ t } := by
  have hl : (bs "K" ++ t).length ≤ 245 := by rw [List.length_append]; have : (bs "K").length = 1 := by decide +kernel
                                             omega
  unfold removeTermFrom
  rw [prefix_tag]
  simp only [show ¬ (bs "K" ++ t).length > 245 by omega, if_false]
  refine ⟨_, rfl, by rw [invalidate_writable]; exact hw, ?_⟩
  refine i.changeTags (only_remove i.holds.sorted i.holds.short) ?_ ?_ hw
  · intro x
    rw [mem_removeTerm, i.holds.tags, ne_eq, List.append_cancel_left_eq]
  · intro hb
    rw [Bool.or_eq_false_iff] at hb
    exact ⟨hb.1, removed_same hb.2⟩

theorem Pre.removeTags {W : World} {T : List Str} : ∀ (l : List Str) {h : Handle} {m : Msg}, Pre W T h m → h.writable = true → (∀ t ∈ l, t.length ≤ 244) →
    ∃ h', removeTags l h = some h' ∧ h'.writable = true ∧ Pre W T h' { m with tags := fun x => m.tags x ∧ x ∉ l }
  | [], h, m, i, hw, _ => ⟨h, rfl, hw, by simpa using i⟩
  | t :: l, h, m, i, hw, hl => by
    obtain ⟨h1, e1, w1, i1⟩ := i.removeTag hw (hl t (by simp))
    obtain ⟨h2, e2, w2, i2⟩ := Pre.removeTags l i1 w1 (fun t ht => hl t (by simp [ht]))
    refine ⟨h2, by simp [Message.removeTags, e1, e2], w2, ?_⟩
    have : (fun x => (m.tags x ∧ x ≠ t) ∧ x ∉ l) = fun x => m.tags x ∧ x ∉ t :: l := by
      funext x
      simp only [List.mem_cons, not_or, eq_iff_iff]
      constructor
      · rintro ⟨⟨a, b⟩, c⟩; exact ⟨a, b, c⟩
      · rintro ⟨a, b, c⟩; exact ⟨⟨a, b⟩, c⟩
    rw [← this]
    exact i2

theorem Pre.modifyProperty {W : World} {T : List Str} {h : Handle} {m : Msg} (i : Pre W T h m) (hw : h.writable = true) {k v : Str} (hk : 61 ∉ k) (hl : k.length + v.length ≤ 235) :
    (∃ h', addTermTo (bs "property") (k ++ bs "=" ++ v) h = some h' ∧ h'.writable = true ∧ Pre W T h' { m with props := PropOp.apply m.props (.add k v) }) ∧
    (∃ h', removeTermFrom (bs "property") (k ++ bs "=" ++ v) h = some h' ∧ h'.writable = true ∧ Pre W T h' { m with props := PropOp.apply m.props (.remove k v) }) := by
  have h245 : (bs "XPROPERTY" ++ (k ++ bs "=" ++ v)).length ≤ 245 := by
    have a : (bs "XPROPERTY").length = 9 := by decide
    have b : (bs "=").length = 1 := by decide
    simp only [List.length_append, a, b]; omega
  have inj : ∀ k' v', m.props k' v' → k' ++ bs "=" ++ v' = k ++ bs "=" ++ v → k' = k ∧ v' = v := by
    intro k' v' h1 h2
    have := prop_inj (a := (k', v')) (b := (k, v)) (i.holds.propKeys _ _ h1) hk h2
    rw [Prod.mk.injEq] at this; exact this
  constructor
  · unfold addTermTo
    rw [prefix_property]
    simp only [show ¬ (bs "XPROPERTY" ++ (k ++ bs "=" ++ v)).length > 245 by omega, if_false]
    refine ⟨_, rfl, by rw [invalidate_writable]; exact hw, ?_⟩
    refine i.changeProps (only_add i.holds.sorted i.holds.short h245) ?_ ?_ (by simp) hw
    · intro s
      rw [mem_addTerm, List.append_cancel_left_eq, i.holds.props]
      constructor
      · rintro (rfl | ⟨k', v', h1, rfl⟩)
        · exact ⟨k, v, .inr ⟨rfl, rfl⟩, rfl⟩
        · exact ⟨k', v', .inl h1, rfl⟩
      · rintro ⟨k', v', h1 | ⟨rfl, rfl⟩, rfl⟩
        · exact .inr ⟨k', v', h1, rfl⟩
        · exact .inl rfl
    · rintro k' v' (h1 | ⟨rfl, rfl⟩)
      · exact i.holds.propKeys _ _ h1
      · exact hk
  · unfold removeTermFrom
    rw [prefix_property]
    simp only [show ¬ (bs "XPROPERTY" ++ (k ++ bs "=" ++ v)).length > 245 by omega, if_false]
    refine ⟨_, rfl, by rw [invalidate_writable]; exact hw, ?_⟩
    refine i.changeProps (only_remove i.holds.sorted i.holds.short) ?_ ?_ ?_ hw
    · intro s
      rw [mem_removeTerm, ne_eq, List.append_cancel_left_eq, i.holds.props]
      constructor
      · rintro ⟨⟨k', v', h1, rfl⟩, h2⟩
        exact ⟨k', v', ⟨h1, fun h => h2 (by rw [h.1, h.2])⟩, rfl⟩
      · rintro ⟨k', v', ⟨h1, h2⟩, rfl⟩
        exact ⟨⟨k', v', h1, rfl⟩, fun h => h2 (inj k' v' h1 h)⟩
    · intro k' v' h; exact i.holds.propKeys _ _ h.1
    · intro hb
      rw [Bool.or_eq_false_iff] at hb
      exact ⟨hb.1, removed_same hb.2⟩

theorem Pre.removeProps {W : World} {T : List Str} {h : Handle} {m : Msg} (i : Pre W T h m) (hw : h.writable = true) (q : Str) :
    ∃ h', removeTermsFrom (bs "XPROPERTY" ++ q) h = some h' ∧ h'.writable = true ∧
      Pre W T h' { m with props := fun k v => m.props k v ∧ ¬ q <+: k ++ bs "=" ++ v } := by
  unfold removeTermsFrom
  rw [removeTerms_spec (Nat.lt_succ_self _) i.holds.sorted]
  refine ⟨_, rfl, by rw [invalidate_writable]; exact hw, ?_⟩
  refine i.changeProps (only_filter i.holds.sorted i.holds.short (List.prefix_append _ _)) ?_ (fun k v h => i.holds.propKeys _ _ h.1) ?_ hw
  · intro s
    rw [List.mem_filter, i.holds.props, Bool.not_eq_true', ← Bool.not_eq_true, List.isPrefixOf_iff_prefix, List.prefix_append_right_inj]
    constructor
    · rintro ⟨⟨k, v, h1, rfl⟩, h2⟩; exact ⟨k, v, ⟨h1, h2⟩, rfl⟩
    · rintro ⟨k, v, ⟨h1, h2⟩, rfl⟩; exact ⟨⟨k, v, h1, rfl⟩, h2⟩
  · intro hb
    rw [Bool.or_eq_false_iff] at hb
    exact ⟨hb.1, Classical.not_not.1 (of_decide_eq_false hb.2)⟩

/-! ## Files -/

theorem Pre.addDirTerm {W : World} {T : List Str} {h : Handle} {m : Msg} (i : Pre W T h m) (hw : h.writable = true) {n p : Str} (hn : (n = bs "folder" ∧ p = bs "XFOLDER:") ∨ (n = bs "path" ∧ p = bs "P"))
    {v : Str} (hl : (p ++ v).length ≤ 245) : ∃ h', addTermTo n v h = some h' ∧ h'.writable = true ∧ Pre W T h' m ∧ valuesWith (bs "XFDIRENTRY") h'.terms = valuesWith (bs "XFDIRENTRY") h.terms := by
  have hp : prefixOf n = p := by rcases hn with ⟨rfl, rfl⟩ | ⟨rfl, rfl⟩ <;> decide +kernel
  have hinv : ∀ h : Handle, invalidate n h = h := by
    intro h
    have : ∀ n ∈ [bs "folder", bs "path"], ∀ x ∈ [bs "thread", bs "tag", bs "type", bs "file-direntry", bs "property", bs "replyto"], n ≠ x := by decide +kernel
    have hn' : n ∈ [bs "folder", bs "path"] := by rcases hn with ⟨rfl, _⟩ | ⟨rfl, _⟩ <;> simp
    have t := this n hn'
    simp only [invalidate, t (bs "thread") (by simp), t (bs "tag") (by simp), t (bs "type") (by simp), t (bs "file-direntry") (by simp), t (bs "property") (by simp),
      t (bs "replyto") (by simp), if_false]
  unfold addTermTo
  rw [hp]
  simp only [show ¬ (p ++ v).length > 245 by omega, if_false, hinv]
  have o : Only p h.terms (addTerm (p ++ v) h.terms) := only_add i.holds.sorted i.holds.short hl
  have hp' : p = bs "XFOLDER:" ∨ p = bs "P" := hn.elim (fun h => .inl h.2) (fun h => .inr h.2)
  refine ⟨_, rfl, hw, i.changeDirs hp' o (by simp) hw, (o.values i.holds.sorted ?_ ?_).2⟩
  · rcases hp' with rfl | rfl <;> decide +kernel
  · rcases hp' with rfl | rfl <;> decide +kernel

theorem Pre.addDirTerms {W : World} (hW : W.Ok) {T : List Str} {h : Handle} {m : Msg} (i : Pre W T h m) (hw : h.writable = true) {id : Nat} {d : Str} (hd : W.dir id = some d) :
    ∃ h', addDirTerms W d h = some h' ∧ h'.writable = true ∧ Pre W T h' m ∧ valuesWith (bs "XFDIRENTRY") h'.terms = valuesWith (bs "XFDIRENTRY") h.terms := by
  obtain ⟨h1, e1, w1, i1, v1⟩ := i.addDirTerm hw (n := bs "folder") (p := bs "XFOLDER:") (.inl ⟨rfl, rfl⟩) (v := W.folder d) (by
    have := hW.folder id d hd
    rw [List.length_append, show (bs "XFOLDER:").length = 8 by decide +kernel]; omega)
  unfold Message.addDirTerms
  simp only [e1]
  have : ∀ (l : List Str) (h : Handle), (∀ p ∈ l, p.length ≤ 244) → Pre W T h m → h.writable = true →
      ∃ h', l.foldl (fun (h : Option Handle) p => h.bind (addTermTo (bs "path") p)) (some h) = some h' ∧ h'.writable = true ∧ Pre W T h' m ∧
        valuesWith (bs "XFDIRENTRY") h'.terms = valuesWith (bs "XFDIRENTRY") h.terms := by
    intro l
    induction l with
    | nil => intro h _ i hw; exact ⟨h, rfl, hw, i, rfl⟩
    | cons p l ih =>
      intro h hl i hw
      obtain ⟨h1, e1, w1, i1, v1⟩ := i.addDirTerm hw (n := bs "path") (p := bs "P") (.inr ⟨rfl, rfl⟩) (v := p) (by
        have := hl p (by simp)
        rw [List.length_append, show (bs "P").length = 1 by decide +kernel]; omega)
      obtain ⟨h2, e2, w2, i2, v2⟩ := ih h1 (fun p hp => hl p (by simp [hp])) i1 w1
      exact ⟨h2, by rw [List.foldl_cons, Option.bind_some, e1]; exact e2, w2, i2, v2.trans v1⟩
  obtain ⟨h2, e2, w2, i2, v2⟩ := this (W.paths d) h1 (hW.paths id d hd) i1 w1
  exact ⟨h2, e2, w2, i2, v2.trans v1⟩

theorem Pre.addAllDirTerms {W : World} (hW : W.Ok) {T : List Str} {m : Msg} : ∀ (es : List Str) {h : Handle}, Pre W T h m → h.writable = true → (∀ e ∈ es, ∃ f, nameOf W e f) →
    ∃ h', addAllDirTerms W es h = some h' ∧ h'.writable = true ∧ Pre W T h' m
  | [], h, i, hw, _ => ⟨h, rfl, hw, i⟩
  | e :: es, h, i, hw, he => by
    obtain ⟨f, id, base, d, rfl, hd, _⟩ := he e (by simp)
    obtain ⟨h1, e1, w1, i1, _⟩ := i.addDirTerms hW hw hd
    obtain ⟨h2, e2, w2, i2⟩ := Pre.addAllDirTerms hW es i1 w1 (fun e h => he e (by simp [h]))
    exact ⟨h2, by simp only [Message.addAllDirTerms, parse_entry, hd, e1, e2], w2, i2⟩

theorem Pre.removeDirTerms {W : World} {T : List Str} {h : Handle} {m : Msg} (i : Pre W T h m) (hw : h.writable = true) {p : Str} (hp : p = bs "XFOLDER:" ∨ p = bs "P") :
    ∃ h', removeTermsFrom p h = some h' ∧ h'.writable = true ∧ Pre W T h' m := by
  unfold removeTermsFrom
  rw [removeTerms_spec (Nat.lt_succ_self _) i.holds.sorted]
  refine ⟨_, rfl, by rw [invalidate_writable]; exact hw, ?_⟩
  refine Pre.forgetProps (i.changeDirs hp (only_filter i.holds.sorted i.holds.short (List.prefix_refl _)) ?_ hw) hw
  intro hb
  rw [Bool.or_eq_false_iff] at hb
  exact ⟨hb.1, Classical.not_not.1 (of_decide_eq_false hb.2)⟩

theorem Pre.removeFilename {W : World} (hW : W.Ok) {T : List Str} {h : Handle} {m : Msg} (i : Pre W T h m) (hw : h.writable = true) {e : Str} (he : e.length ≤ 235) :
    ∃ h', removeFilename W e h = some h' ∧ h'.writable = true ∧ Pre W T h' { m with files := fun x => m.files x ∧ x ≠ e } := by
  have hl : (bs "XFDIRENTRY" ++ e).length ≤ 245 := by rw [List.length_append, show (bs "XFDIRENTRY").length = 10 by decide +kernel]; omega
  have h1 : ∃ h', removeTermFrom (bs "file-direntry") e h = some h' ∧ h'.writable = true ∧ Pre W T h' { m with files := fun x => m.files x ∧ x ≠ e } := by
    unfold removeTermFrom
    rw [prefix_file]
    simp only [show ¬ (bs "XFDIRENTRY" ++ e).length > 245 by omega, if_false]
    refine ⟨_, rfl, by rw [invalidate_writable]; exact hw, ?_⟩
    refine i.changeFiles (only_remove i.holds.sorted i.holds.short) ?_ (fun e h => i.holds.dirs e h.1) ?_ hw
    · intro x
      rw [mem_removeTerm, i.holds.files, ne_eq, List.append_cancel_left_eq]
    · intro hb
      rw [Bool.or_eq_false_iff] at hb
      exact ⟨hb.1, removed_same hb.2⟩
  obtain ⟨h1, e1, w1, i1⟩ := h1
  obtain ⟨h2, e2, w2, i2⟩ := i1.removeDirTerms w1 (.inl rfl)
  obtain ⟨h3, e3, w3, i3⟩ := i2.removeDirTerms w2 (.inr rfl)
  have hv : (getTermsWithPrefix (bs "XFDIRENTRY") h3.terms).1 = valuesWith (bs "XFDIRENTRY") h3.terms :=
    (getTermsWithPrefix_spec (terms := h3.terms) i3.holds.sorted ⟨[], rfl, by simp⟩).1
  obtain ⟨h4, e4, w4, i4⟩ := Pre.addAllDirTerms hW (valuesWith (bs "XFDIRENTRY") h3.terms) i3 w3 (by
    intro x hx
    exact i3.holds.dirs x ((i3.holds.files x).1 (mem_valuesWith.1 hx)))
  refine ⟨h4, ?_, w4, i4⟩
  unfold Message.removeFilename
  rw [prefix_folder, prefix_path, prefix_file]
  simp only [e1, e2, e3, hv, e4]

theorem Pre.addFilename {W : World} (hW : W.Ok) {T : List Str} {h : Handle} {m : Msg} (i : Pre W T h m) (hw : h.writable = true) {e : Str} (he : e.length ≤ 235) (hn : ∃ f, nameOf W e f) :
    ∃ h', addFilename W e h = some (h', true) ∧ h'.writable = true ∧ Pre W T h' { m with files := fun x => m.files x ∨ x = e } := by
  have hl : (bs "XFDIRENTRY" ++ e).length ≤ 245 := by rw [List.length_append, show (bs "XFDIRENTRY").length = 10 by decide +kernel]; omega
  have h1 : ∃ h', addTermTo (bs "file-direntry") e h = some h' ∧ h'.writable = true ∧ Pre W T h' { m with files := fun x => m.files x ∨ x = e } := by
    unfold addTermTo
    rw [prefix_file]
    simp only [show ¬ (bs "XFDIRENTRY" ++ e).length > 245 by omega, if_false]
    refine ⟨_, rfl, by rw [invalidate_writable]; exact hw, ?_⟩
    refine i.changeFiles (only_add i.holds.sorted i.holds.short hl) ?_ ?_ (by simp) hw
    · intro x
      rw [mem_addTerm, List.append_cancel_left_eq, i.holds.files]
      exact or_comm
    · rintro x (hx | rfl)
      · exact i.holds.dirs x hx
      · exact hn
  obtain ⟨h1, e1, w1, i1⟩ := h1
  obtain ⟨f, id, base, d, rfl, hd, _⟩ := hn
  obtain ⟨h2, e2, w2, i2, _⟩ := i1.addDirTerms hW w1 hd
  refine ⟨h2, ?_, w2, i2⟩
  unfold Message.addFilename
  simp only [e1, parse_entry, hd, e2]

end Notmuch.Message
