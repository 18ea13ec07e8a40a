import Verif.Proofs.ShowSays

/-! # notmuch show: names for S-expressions, files, threads (C55) -/

namespace Notmuch.Show

open Notmuch.Sprinter

/-! ## Names -/

theorem kobj_app : ∀ a b : List (Str × Val), Val.KeysOkObj (a ++ b) ↔ Val.KeysOkObj a ∧ Val.KeysOkObj b
  | [], b => by simp [Val.KeysOkObj]
  | (k, v) :: a, b => by rw [List.cons_append, Val.KeysOkObj, Val.KeysOkObj, kobj_app a b]; simp [and_assoc]

theorem kobj_mem : ∀ {l : List (Str × Val)}, (∀ x ∈ l, (∀ c ∈ x.1, isAlnum c = true ∨ c = 45 ∨ c = 95) ∧ x.2.KeysOk) → Val.KeysOkObj l
  | [], _ => by simp [Val.KeysOkObj]
  | (k, v) :: a, h => by
    rw [Val.KeysOkObj]
    exact ⟨(h (k, v) (by simp)).1, (h (k, v) (by simp)).2, kobj_mem (fun x hx => h x (by simp [hx]))⟩

theorem klist_mem : ∀ {l : List Val}, (∀ x ∈ l, x.KeysOk) → Val.KeysOkList l
  | [], _ => by simp [Val.KeysOkList]
  | v :: a, h => by
    rw [Val.KeysOkList]
    exact ⟨h v (by simp), klist_mem (fun x hx => h x (by simp [hx]))⟩

def okName (k : Str) : Bool := k.all (fun c => isAlnum c || c == 45 || c == 95)

theorem okName_iff {k : Str} (h : okName k = true) : ∀ c ∈ k, isAlnum c = true ∨ c = 45 ∨ c = 95 := by
  intro c hc
  have := List.all_eq_true.1 h c hc
  simpa [or_assoc] using this

theorem kone {k : Str} {v : Val} (hk : okName k = true) (hv : v.KeysOk) : Val.KeysOkObj (one k v) := by
  simp only [one, Val.KeysOkObj, and_true]
  exact ⟨okName_iff hk, hv⟩

theorem kopt {k : Str} {o : Option Val} (hk : okName k = true) (hv : ∀ v, o = some v → v.KeysOk) : Val.KeysOkObj (optV k o) := by
  cases o with
  | none => simp [optV, Val.KeysOkObj]
  | some v => exact kone hk (hv v rfl)

theorem kstr (s : Str) : (Val.str s).KeysOk := by simp [Val.KeysOk]
theorem ktext (s : Option Str) : (text s).KeysOk := by simp [text, Val.KeysOk]
theorem kint (s : Int) : (Val.int s).KeysOk := by simp [Val.KeysOk]
theorem kbool (s : Bool) : (Val.bool s).KeysOk := by simp [Val.KeysOk]
theorem knull : Val.null.KeysOk := by simp [Val.KeysOk]
theorem kobj {l : List (Str × Val)} (h : Val.KeysOkObj l) : (Val.obj l).KeysOk := by rw [Val.KeysOk]; exact h
theorem klist {l : List Val} (h : ∀ x ∈ l, x.KeysOk) : (Val.list l).KeysOk := by rw [Val.KeysOk]; exact klist_mem h
theorem koptstr {k : Str} {o : Option Str} (hk : okName k = true) : Val.KeysOkObj (optV k (o.map str)) := by
  refine kopt hk ?_
  intro v h
  cases o with
  | none => simp at h
  | some x => simp at h; subst h; exact ktext _

theorem kapp {a b : List (Str × Val)} (h : Val.KeysOkObj a) (h' : Val.KeysOkObj b) : Val.KeysOkObj (a ++ b) := (kobj_app a b).2 ⟨h, h'⟩

theorem errors_keys (status : Nat) : (errorsVal status).KeysOk := by
  refine kobj (kobj_mem ?_)
  intro x hx
  obtain ⟨b, hb, rfl⟩ := List.mem_map.1 hx
  have hb' := (List.mem_filter.1 hb).1
  have : ∀ b ∈ errorBits, okName b.2 = true := by decide +kernel
  exact ⟨okName_iff (this b hb'), kbool _⟩

theorem sig_keys (version : Int) (s : Sig) : (sigVal version s).KeysOk := by
  refine kobj (kapp (kapp (kone (by decide +kernel) (kstr _)) ?_) (kopt (by decide +kernel) ?_))
  · unfold certV
    split
    · refine kapp (kapp (kapp (kopt (by decide +kernel) ?_) (kopt (by decide +kernel) ?_)) (kopt (by decide +kernel) ?_)) (kapp (kopt (by decide +kernel) ?_) (kopt (by decide +kernel) ?_))
      · intro v h; simp at h; obtain ⟨_, _, rfl⟩ := h; exact ktext _
      · intro v h; split at h <;> simp at h; subst h; exact kint _
      · intro v h; split at h <;> simp at h; subst h; exact kint _
      · intro v h; rw [Option.bind_eq_some_iff] at h; obtain ⟨_, _, h⟩ := h; rw [Option.map_eq_some_iff] at h; obtain ⟨_, _, rfl⟩ := h; exact ktext _
      · intro v h; rw [Option.bind_eq_some_iff] at h; obtain ⟨_, _, h⟩ := h; rw [Option.map_eq_some_iff] at h; obtain ⟨_, _, rfl⟩ := h; exact ktext _
    · refine kopt (by decide +kernel) ?_
      intro v h; rw [Option.bind_eq_some_iff] at h; obtain ⟨_, _, h⟩ := h; rw [Option.map_eq_some_iff] at h; obtain ⟨_, _, rfl⟩ := h; exact ktext _
  · intro v h
    split at h <;> simp at h
    subst h
    split
    · exact kint _
    · exact errors_keys _

theorem sigStatus_keys (version : Int) (l : Option (List Sig)) : (sigStatusVal version l).KeysOk := by
  refine klist ?_
  intro x hx
  obtain ⟨s, _, rfl⟩ := List.mem_map.1 hx
  exact sig_keys _ _

theorem headers_keys {extra : List Str} {h : Headers} (hn : LispNames extra h) (reply : Bool) (subject : Option Str) : (Val.obj (headersV extra h reply subject)).KeysOk := by
  refine kobj (kapp (kapp (kapp (kapp (kapp (kapp (kone (by decide +kernel) (ktext _)) (kone (by decide +kernel) (ktext _))) (koptstr (by decide +kernel))) (koptstr (by decide +kernel)))
    (koptstr (by decide +kernel))) (koptstr (by decide +kernel))) ?_)
  split
  · exact kapp (kone (by decide +kernel) (ktext _)) (kone (by decide +kernel) (ktext _))
  · refine kapp (kone (by decide +kernel) (ktext _)) (kobj_mem ?_)
    intro x hx
    obtain ⟨z, hz, rfl⟩ := List.mem_map.1 hx
    exact ⟨hn z hz, ktext _⟩

theorem info_keys (o : Opts) (i : Info) (n : Nat) (f : Option Str) : Val.KeysOkObj (infoV o i n f) := by
  refine kapp (kapp (kapp (kapp (kapp (kapp (kone (by decide +kernel) (kint _)) (kopt (by decide +kernel) ?_)) (kopt (by decide +kernel) ?_)) (kone (by decide +kernel) (ktext _)))
    (koptstr (by decide +kernel))) (koptstr (by decide +kernel))) (koptstr (by decide +kernel))
  · intro v h
    rw [Option.map_eq_some_iff] at h
    obtain ⟨b, _, rfl⟩ := h
    refine klist ?_
    intro x hx
    rw [List.mem_singleton] at hx
    subst hx
    exact kobj (kone (k := bs "status") (by decide +kernel) (kstr _))
  · intro v h
    simp at h
    obtain ⟨l, _, rfl⟩ := h
    exact sigStatus_keys _ _

theorem omitted_keysOk (charset cte : Option Str) (length : Int) : Val.KeysOkObj (omittedV charset cte length) := by
  refine kapp (kapp (koptstr (by decide +kernel)) (koptstr (by decide +kernel))) (kopt (by decide +kernel) ?_)
  intro v h
  split at h <;> simp at h
  subst h
  exact kint _

mutual
theorem part_keys {o : Opts} : ∀ (t : Node) (n : Nat), t.Good (LispNames o.extra) → (partVal o t n).KeysOk
  | .part i filename text charset cte length kids, n, hg => by
    rw [Node.Good] at hg
    rw [partVal]
    refine kobj (kapp (info_keys _ _ _ _) ?_)
    split
    · exact kone (by decide +kernel) (kstr _)
    · split
      · exact kone (by decide +kernel) (klist (parts_keys kids (n + 1) hg.2))
      · exact omitted_keysOk _ _ _
  | .multipart i kids, n, hg => by
    rw [Node.Good] at hg
    rw [partVal]
    exact kobj (kapp (info_keys _ _ _ _) (kone (by decide +kernel) (klist (parts_keys kids (n + 1) hg))))
  | .message i h kids, n, hg => by
    rw [Node.Good] at hg
    rw [partVal]
    refine kobj (kapp (info_keys _ _ _ _) (kone (by decide +kernel) (klist ?_)))
    intro x hx
    rw [List.mem_singleton] at hx
    subst hx
    exact kobj (kapp (a := one _ _) (b := one _ _) (kone (by decide +kernel) (headers_keys hg.1 _ _)) (kone (by decide +kernel) (klist (parts_keys kids (n + 1) hg.2))))

theorem parts_keys {o : Opts} : ∀ (l : List Node) (n : Nat), Node.GoodAll (LispNames o.extra) l → ∀ v ∈ partsVal o l n, v.KeysOk
  | [], _, _ => by rw [partsVal]; simp
  | t :: l, n, hg => by
    rw [Node.GoodAll] at hg
    rw [partsVal]
    intro v hv
    rcases List.mem_cons.1 hv with rfl | hv
    · exact part_keys t n hg.1
    · exact parts_keys l _ hg.2 v hv
end

theorem crypto_keys (version : Int) (h : Headers) (c : Crypto) : Val.KeysOkObj (cryptoV version h c) := by
  unfold cryptoV
  split
  · refine kone (by decide +kernel) (kobj (kapp (kopt (by decide +kernel) ?_) (kopt (by decide +kernel) ?_)))
    · intro v hx
      simp at hx
      obtain ⟨l, _, rfl⟩ := hx
      refine kobj (kapp (kapp (kone (by decide +kernel) (sigStatus_keys _ _)) (kopt (by decide +kernel) ?_)) (kopt (by decide +kernel) ?_))
      · intro v h; split at h <;> simp at h; subst h; exact kbool _
      · intro v h; split at h <;> simp at h; subst h
        exact klist (by intro x hx; rw [List.mem_singleton] at hx; subst hx; exact kstr _)
    · intro v hx
      split at hx <;> simp at hx
      subst hx
      refine kobj (kapp (kone (by decide +kernel) (kstr _)) (kopt (by decide +kernel) ?_))
      intro v h; split at h <;> simp at h; subst h
      refine kobj (kone (by decide +kernel) ?_)
      split
      · exact knull
      · exact ktext _
  · simp [Val.KeysOkObj]

theorem message_keys {o : Opts} (m : Msg) {r : Root} (hg : r.Good (LispNames o.extra)) : (messageVal o m r).KeysOk := by
  refine kobj (kapp (kapp (kapp (kapp ?_ (kone (by decide +kernel) (kint _))) (kopt (by decide +kernel) ?_)) (crypto_keys _ _ _)) (kone (by decide +kernel) (headers_keys hg.1 _ _)))
  · refine kapp (kapp (kapp (kapp (kapp (kapp (kone (by decide +kernel) (ktext _)) (kone (by decide +kernel) (kbool _))) (kone (by decide +kernel) (kbool _))) (kone (by decide +kernel) ?_))
      (kone (by decide +kernel) (kint _))) (kone (by decide +kernel) (ktext _))) (kone (by decide +kernel) ?_)
    · split
      · refine klist ?_
        intro x hx
        obtain ⟨_, _, rfl⟩ := List.mem_map.1 hx
        exact ktext _
      · exact ktext _
    · refine klist ?_
      intro x hx
      obtain ⟨_, _, rfl⟩ := List.mem_map.1 hx
      exact ktext _
  · intro v h
    split at h <;> simp at h
    subst h
    exact klist (by intro x hx; rw [List.mem_singleton] at hx; subst hx; exact part_keys _ _ hg.2)

theorem reply_keys {o : Opts} (reply : Headers) (hl : LispNames o.extra reply) (m : Msg) {r : Root} (hg : r.Good (LispNames o.extra)) : (replyVal o reply m r).KeysOk :=
  kobj (kapp (a := one _ _) (b := one _ _) (kone (by decide +kernel) (headers_keys hl _ _)) (kone (by decide +kernel) (message_keys (o := { o with body := true, html := false }) m hg)))

/-! ## Files -/

theorem slow_first {d : Int} (hd : d ≤ 0) : ∀ (l : List File) (i : Int), 1 ≤ i → openSlow d l i = l.find? (fun f => f.bytes.isSome)
  | [], _, _ => rfl
  | f :: l, i, hi => by
    rw [openSlow, if_pos (by omega), List.find?_cons]
    cases hb : f.bytes.isSome with
    | true => rfl
    | false => rw [if_neg (by simp), if_neg (by omega), slow_first hd l (i + 1) (by omega)]

theorem open_first {d : Int} (hd : d ≤ 0) (l : List File) : openFile d l = l.find? (fun f => f.bytes.isSome) := by
  cases l with
  | nil => rfl
  | cons f l =>
    unfold openFile
    simp only []
    cases hb : f.bytes.isSome with
    | true => rw [if_pos ⟨hd, rfl⟩, List.find?_cons, hb]
    | false => rw [if_neg (by simp), slow_first hd _ 1 (by omega)]

theorem slow_this {d : Int} : ∀ (l : List File) (i : Int), 0 < i → i ≤ d → openSlow d l i = l[(d - i).toNat]?.bind (fun f => if f.bytes.isSome then some f else none)
  | [], i, _, _ => by simp [openSlow]
  | f :: l, i, hi, hd => by
    rw [openSlow]
    by_cases h : i ≥ d
    · have : d = i := by omega
      subst this
      rw [if_pos h, show (d - d).toNat = 0 by omega, if_pos (show d > 0 by omega)]
      rfl
    · rw [if_neg h, slow_this l (i + 1) (by omega) (by omega)]
      rw [show (d - i).toNat = (d - (i + 1)).toNat + 1 by omega, List.getElem?_cons_succ]

theorem open_this {d : Int} (hd : 0 < d) (l : List File) : openFile d l = l[(d - 1).toNat]?.bind (fun f => if f.bytes.isSome then some f else none) := by
  cases l with
  | nil => rfl
  | cons f l =>
    unfold openFile
    simp only []
    rw [if_neg (by omega), slow_this _ 1 (by omega) (by omega)]

theorem open_iff (d : Int) (l : List File) (f : File) : openFile d l = some f ↔ Chosen d l f := by
  by_cases hd : d ≤ 0
  · rw [open_first hd, List.find?_eq_some_iff_append]
    constructor
    · rintro ⟨h, a, b, rfl, h'⟩
      refine .first hd ?_ ?_
      · intro g hg
        have := h' g hg
        cases hb : g.bytes <;> simp [hb] at this ⊢
      · intro hn; simp [hn] at h
    · intro h
      cases h with
      | first _ hb hf =>
        refine ⟨?_, _, _, rfl, ?_⟩
        · cases hx : f.bytes <;> simp [hx] at hf ⊢
        · intro g hg; simp [hb g hg]
      | this h => omega
  · rw [open_this (by omega)]
    constructor
    · intro h
      rw [Option.bind_eq_some_iff] at h
      obtain ⟨g, hg, h⟩ := h
      split at h
      · rename_i hb
        simp at h
        subst h
        obtain ⟨hl, he⟩ := List.getElem?_eq_some_iff.1 hg
        have : l = l.take (d - 1).toNat ++ g :: l.drop ((d - 1).toNat + 1) := by
          rw [← he]
          rw [List.getElem_cons_drop, List.take_append_drop]
        rw [this]
        refine .this ?_ ?_
        · rw [List.length_take]; omega
        · intro hn; simp [hn] at hb
      · simp at h
    · intro h
      cases h with
      | first h => omega
      | @this _ before after h hb =>
        have hx : (d - 1).toNat = before.length := by omega
        rw [hx]
        cases hy : f.bytes with
        | none => exact absurd hy hb
        | some b => simp [hy]

theorem root_readable {P : Headers → Prop} {d : Int} {m : Msg} (h : Readable P d m) : ∃ f r, Chosen d m.files f ∧ f.root = some r ∧ r.Good P ∧ openRoot d m.files = some r := by
  obtain ⟨f, r, hc, hr, hg⟩ := h
  exact ⟨f, r, hc, hr, hg, by rw [openRoot, (open_iff _ _ _).2 hc]; exact hr⟩

/-! ## Offset and limit -/

theorem window_eq {α : Type} (offset limit : Int) : ∀ (l : List α) (i : Int), window offset limit l i =
    if limit < 0 then l.drop (offset - i).toNat else (l.drop (offset - i).toNat).take (offset + limit - (if i < offset then offset else i)).toNat
  | [], _ => by simp [window]
  | x :: l, i => by
    rw [window, window_eq offset limit l (i + 1)]
    by_cases hl : limit < 0
    · rw [if_pos (Or.inl hl), if_pos hl, if_pos hl]
      by_cases hi : i < offset
      · rw [if_pos hi, show (offset - i).toNat = (offset - (i + 1)).toNat + 1 by omega, List.drop_succ_cons]
      · rw [if_neg hi, show (offset - i).toNat = 0 by omega, show (offset - (i + 1)).toNat = 0 by omega, List.drop_zero, List.drop_zero]
    · rw [if_neg hl, if_neg hl]
      by_cases hs : i < offset + limit
      · rw [if_pos (Or.inr hs)]
        by_cases hi : i < offset
        · rw [if_pos hi, if_pos hi, show (offset - i).toNat = (offset - (i + 1)).toNat + 1 by omega, List.drop_succ_cons]
          congr 2
          by_cases hi' : i + 1 < offset
          · rw [if_pos hi']
          · rw [if_neg hi', show i + 1 = offset by omega]
        · rw [if_neg hi, if_neg hi, if_neg (by omega), show (offset - i).toNat = 0 by omega, show (offset - (i + 1)).toNat = 0 by omega, List.drop_zero, List.drop_zero,
            show (offset + limit - i).toNat = (offset + limit - (i + 1)).toNat + 1 by omega, List.take_succ_cons]
      · rw [if_neg (by omega)]
        by_cases hi : i < offset
        · rw [if_pos hi, show (offset + limit - offset).toNat = 0 by omega, List.take_zero]
        · rw [if_neg hi, show (offset + limit - i).toNat = 0 by omega, List.take_zero]

theorem window_spec {α : Type} (offset limit : Int) (l : List α) : window (offsetOf offset l.length) limit l 0 = Window offset limit l := by
  rw [window_eq]
  unfold Window offsetOf
  by_cases ho : offset < 0
  · simp only [ho, if_true]
    by_cases hc : offset + (l.length : Int) < 0
    · rw [if_pos hc]
      simp only [show (0 : Int) - 0 = 0 by omega, Int.lt_irrefl, if_false]
      rw [show l.length - offset.natAbs = 0 by omega]
      by_cases hl : limit < 0
      · simp [hl]
      · simp [hl]
    · rw [if_neg hc, show (offset + (l.length : Int) - 0).toNat = l.length - offset.natAbs by omega]
      by_cases hl : limit < 0
      · simp [hl]
      · simp only [hl, if_false]
        congr 1
        split <;> omega
  · simp only [ho, if_false]
    rw [show (offset - 0).toNat = offset.toNat by omega]
    by_cases hl : limit < 0
    · simp [hl]
    · simp only [hl, if_false]
      congr 1
      split <;> omega

/-! ## Threads -/

theorem calls_app : ∀ a b : List Ev, calls (a ++ b) = calls a ++ calls b
  | [], _ => rfl
  | .call c :: a, b => by rw [List.cons_append, calls, calls, calls_app a b]; rfl
  | .out s :: a, b => by rw [List.cons_append, calls, calls, calls_app a b]

theorem calls_map : ∀ l : List Call, calls (l.map .call) = l
  | [] => rfl
  | c :: l => by rw [List.map_cons, calls, calls_map l]

/-- The value of a message: the value of the root that is opened. -/
def msgVal (o : Opts) (m : Msg) : Val :=
  match openRoot o.duplicate m.files with
  | none => .null
  | some r => messageVal o m r

theorem showMessage_calls {P : Headers → Prop} {p : Params} (hp : p.part ≤ 0) (depth : Nat) {m : Msg} (h : Readable P p.opts.duplicate m) :
    norm (calls (showMessage .structured p depth m).1) = (msgVal p.opts m).calls ∧ (showMessage .structured p depth m).2 = false := by
  obtain ⟨f, r, _, _, hg, ho⟩ := root_readable h
  unfold showMessage msgVal seek
  rw [ho]
  simp only [hp, if_true, formatPart]
  rw [calls_map, message_calls _ P m r hg]
  exact ⟨rfl, trivial⟩

theorem showOne_calls {P : Headers → Prop} {p : Params} (hp : p.part ≤ 0) (depth : Nat) {m : Msg} (h : shown p m = true → Readable P p.opts.duplicate m) :
    norm (calls (showOne .structured p depth m).1) = (if shown p m then msgVal p.opts m else .null).calls ∧ (showOne .structured p depth m).2 = false := by
  unfold showOne
  by_cases hs : shown p m = true
  · rw [if_pos hs, if_pos hs]; exact showMessage_calls hp depth (h hs)
  · rw [if_neg hs, if_neg hs]; exact ⟨by simp [calls, norm, Val.calls], rfl⟩

mutual
theorem tree_calls {P : Headers → Prop} {p : Params} (hp : p.part ≤ 0) : ∀ (t : Tree) (depth : Nat), (∀ m ∈ t.msgs, shown p m = true → Readable P p.opts.duplicate m) →
    norm (calls (showTree .structured p depth t).1) = (treeVal p (msgVal p.opts) t).calls ∧ (showTree .structured p depth t).2 = false
  | .node m l, depth, h => by
    have a := showOne_calls (P := P) hp depth (h m (by simp [Tree.msgs]))
    have b := trees_calls (P := P) hp l (if shown p m then depth + 1 else depth) (fun x hx => h x (by simp [Tree.msgs, hx]))
    rw [showTree, treeVal]
    simp only []
    refine ⟨?_, by rw [a.2, b.2]; rfl⟩
    simp only [calls_app, norm_app, a.1, b.1]
    rw [calls_list, Val.callsList, Val.callsList, Val.callsList, calls_list]
    simp [calls, n_list, n_end, n_nil]

theorem trees_calls {P : Headers → Prop} {p : Params} (hp : p.part ≤ 0) : ∀ (l : List Tree) (depth : Nat), (∀ m ∈ Tree.msgsList l, shown p m = true → Readable P p.opts.duplicate m) →
    norm (calls (showTrees .structured p depth l).1) = Val.callsList (treeVals p (msgVal p.opts) l) ∧ (showTrees .structured p depth l).2 = false
  | [], _, _ => by rw [showTrees, treeVals]; exact ⟨rfl, rfl⟩
  | t :: l, depth, h => by
    have a := tree_calls (P := P) hp t depth (fun x hx => h x (by simp [Tree.msgsList, hx]))
    have b := trees_calls (P := P) hp l depth (fun x hx => h x (by simp [Tree.msgsList, hx]))
    rw [showTrees, treeVals]
    simp only []
    refine ⟨?_, by rw [a.2, b.2]; rfl⟩
    rw [calls_app, norm_app, a.1, b.1, Val.callsList]
end

theorem messages_calls {P : Headers → Prop} {p : Params} (hp : p.part ≤ 0) (l : List Tree) (depth : Nat) (h : ∀ m ∈ Tree.msgsList l, shown p m = true → Readable P p.opts.duplicate m) :
    norm (calls (showMessages .structured p depth l).1) = (Val.list (treeVals p (msgVal p.opts) l)).calls ∧ (showMessages .structured p depth l).2 = false := by
  have b := trees_calls (P := P) hp l depth h
  unfold showMessages
  refine ⟨?_, b.2⟩
  simp only [calls_app, norm_app, b.1]
  rw [calls_list]
  simp [calls, n_list, n_end, n_nil]

theorem all_calls {α : Type} (f : α → List Ev × Bool) (g : α → Val) : ∀ l : List α, (∀ x ∈ l, norm (calls (f x).1) = (g x).calls ∧ (f x).2 = false) →
    norm (calls (showAll f l).1) = Val.callsList (l.map g) ∧ (showAll f l).2 = false
  | [], _ => ⟨rfl, rfl⟩
  | x :: l, h => by
    have a := h x (by simp)
    have b := all_calls f g l (fun y hy => h y (by simp [hy]))
    rw [showAll]
    simp only []
    refine ⟨?_, by rw [a.2, b.2]; rfl⟩
    rw [calls_app, norm_app, a.1, b.1, List.map_cons, Val.callsList]

theorem threaded_calls {P : Headers → Prop} {p : Params} (hp : p.part ≤ 0) (threads : List (List Tree))
    (h : ∀ t ∈ Window p.offset p.limit threads, ∀ m ∈ Tree.msgsList t, shown p m = true → Readable P p.opts.duplicate m) :
    norm (calls (showThreaded .structured p threads.length threads).1) = (Val.list ((Window p.offset p.limit threads).map (fun t => .list (treeVals p (msgVal p.opts) t)))).calls ∧
    (showThreaded .structured p threads.length threads).2 = false := by
  unfold showThreaded
  simp only []
  rw [window_spec]
  have b := all_calls (showMessages .structured p 0) (fun t => Val.list (treeVals p (msgVal p.opts) t)) _ (fun t ht => messages_calls (P := P) hp t 0 (h t ht))
  refine ⟨?_, b.2⟩
  simp only [calls_app, norm_app, b.1]
  rw [calls_list]
  simp [calls, n_list, n_end, n_nil]

/-! ## The values of threads fit the schema -/

mutual
theorem tree_ok {p : Params} {msg : Msg → Val} : ∀ t : Tree, (∀ m ∈ t.msgs, shown p m = true → IsMessage (msg m)) → IsThreadNode (treeVal p msg t)
  | .node m l, h => by
    rw [treeVal]
    refine .node ?_ (trees_ok l (fun x hx => h x (by simp [Tree.msgs, hx])))
    by_cases hs : shown p m = true
    · rw [if_pos hs]; exact Or.inl (h m (by simp [Tree.msgs]) hs)
    · rw [if_neg hs]; exact Or.inr rfl

theorem trees_ok {p : Params} {msg : Msg → Val} : ∀ l : List Tree, (∀ m ∈ Tree.msgsList l, shown p m = true → IsMessage (msg m)) → ∀ v ∈ treeVals p msg l, IsThreadNode v
  | [], _ => by rw [treeVals]; simp
  | t :: l, h => by
    rw [treeVals]
    intro v hv
    rcases List.mem_cons.1 hv with rfl | hv
    · exact tree_ok t (fun x hx => h x (by simp [Tree.msgsList, hx]))
    · exact trees_ok l (fun x hx => h x (by simp [Tree.msgsList, hx])) v hv
end

mutual
theorem tree_keys {p : Params} {msg : Msg → Val} : ∀ t : Tree, (∀ m ∈ t.msgs, shown p m = true → (msg m).KeysOk) → (treeVal p msg t).KeysOk
  | .node m l, h => by
    rw [treeVal]
    refine klist ?_
    intro x hx
    simp only [List.mem_cons, List.not_mem_nil, or_false] at hx
    rcases hx with rfl | rfl
    · split
      · rename_i hs; exact h m (by simp [Tree.msgs]) hs
      · exact knull
    · exact klist (trees_keys l (fun x hx => h x (by simp [Tree.msgs, hx])))

theorem trees_keys {p : Params} {msg : Msg → Val} : ∀ l : List Tree, (∀ m ∈ Tree.msgsList l, shown p m = true → (msg m).KeysOk) → ∀ v ∈ treeVals p msg l, v.KeysOk
  | [], _ => by rw [treeVals]; simp
  | t :: l, h => by
    rw [treeVals]
    intro v hv
    rcases List.mem_cons.1 hv with rfl | hv
    · exact tree_keys t (fun x hx => h x (by simp [Tree.msgsList, hx]))
    · exact trees_keys l (fun x hx => h x (by simp [Tree.msgsList, hx])) v hv
end

theorem msgVal_eq {P : Headers → Prop} {o : Opts} {m : Msg} (h : Readable P o.duplicate m) : ∃ f r, Chosen o.duplicate m.files f ∧ f.root = some r ∧ r.Good P ∧ msgVal o m = messageVal o m r := by
  obtain ⟨f, r, hc, hr, hg, ho⟩ := root_readable h
  exact ⟨f, r, hc, hr, hg, by unfold msgVal; rw [ho]⟩

/-! ## Text -/

theorem bytes_app : ∀ a b : List Ev, bytes (a ++ b) = bytes a ++ bytes b
  | [], _ => rfl
  | .call c :: a, b => by rw [List.cons_append, bytes, bytes, bytes_app a b]
  | .out s :: a, b => by rw [List.cons_append, bytes, bytes, bytes_app a b, List.append_assoc]

theorem showMessage_text {P : Headers → Prop} {p : Params} (hp : p.part ≤ 0) (depth : Nat) {m : Msg} (h : Readable P p.opts.duplicate m) :
    ∃ f r, Chosen p.opts.duplicate m.files f ∧ f.root = some r ∧ bytes (showMessage .text p depth m).1 = textMessage p.opts depth m r ∧ (showMessage .text p depth m).2 = false := by
  obtain ⟨f, r, hc, hr, hg, ho⟩ := root_readable h
  refine ⟨f, r, hc, hr, ?_⟩
  unfold showMessage seek
  rw [ho]
  simp [hp, formatPart, bytes]

/-- The text of a message. -/
def msgText (o : Opts) (x : Msg × Nat) : Str :=
  match openRoot o.duplicate x.1.files with
  | none => []
  | some r => textMessage o x.2 x.1 r

theorem showOne_text {P : Headers → Prop} {p : Params} (hp : p.part ≤ 0) (depth : Nat) {m : Msg} (h : shown p m = true → Readable P p.opts.duplicate m) :
    bytes (showOne .text p depth m).1 = (if shown p m then msgText p.opts (m, depth) else []) ∧ (showOne .text p depth m).2 = false := by
  unfold showOne
  by_cases hs : shown p m = true
  · rw [if_pos hs, if_pos hs]
    obtain ⟨f, r, hc, hr, hg, ho⟩ := root_readable (h hs)
    unfold showMessage seek msgText
    simp only []
    rw [ho]
    simp [hp, formatPart, bytes]
  · rw [if_neg hs, if_neg hs]; exact ⟨rfl, rfl⟩

mutual
theorem tree_text {P : Headers → Prop} {p : Params} (hp : p.part ≤ 0) : ∀ (t : Tree) (rest : List Tree) (depth : Nat), (∀ m ∈ t.msgs, shown p m = true → Readable P p.opts.duplicate m) →
    (bytes (showTree .text p depth t).1 ++ (depths p depth rest).flatMap (msgText p.opts) = (depths p depth (t :: rest)).flatMap (msgText p.opts)) ∧ (showTree .text p depth t).2 = false
  | .node m l, rest, depth, h => by
    have a := showOne_text (P := P) hp depth (h m (by simp [Tree.msgs]))
    have b := trees_text (P := P) hp l (if shown p m then depth + 1 else depth) (fun x hx => h x (by simp [Tree.msgs, hx]))
    rw [showTree, depths]
    simp only []
    refine ⟨?_, by rw [a.2, b.2]; rfl⟩
    simp only [bytes_app, a.1, b.1, List.flatMap_append]
    simp [bytes]
    split <;> simp

theorem trees_text {P : Headers → Prop} {p : Params} (hp : p.part ≤ 0) : ∀ (l : List Tree) (depth : Nat), (∀ m ∈ Tree.msgsList l, shown p m = true → Readable P p.opts.duplicate m) →
    (bytes (showTrees .text p depth l).1 = (depths p depth l).flatMap (msgText p.opts)) ∧ (showTrees .text p depth l).2 = false
  | [], _, _ => by rw [showTrees, depths]; exact ⟨rfl, rfl⟩
  | t :: l, depth, h => by
    have a := tree_text (P := P) hp t l depth (fun x hx => h x (by simp [Tree.msgsList, hx]))
    have b := trees_text (P := P) hp l depth (fun x hx => h x (by simp [Tree.msgsList, hx]))
    rw [showTrees]
    simp only []
    refine ⟨?_, by rw [a.2, b.2]; rfl⟩
    rw [bytes_app, b.1, a.1]
end

theorem all_text {α : Type} (f : α → List Ev × Bool) (g : α → Str) : ∀ l : List α, (∀ x ∈ l, bytes (f x).1 = g x ∧ (f x).2 = false) →
    bytes (showAll f l).1 = l.flatMap g ∧ (showAll f l).2 = false
  | [], _ => by simp [showAll, bytes]
  | x :: l, h => by
    have a := h x (by simp)
    have b := all_text f g l (fun y hy => h y (by simp [hy]))
    rw [showAll]
    simp only []
    refine ⟨?_, by rw [a.2, b.2]; rfl⟩
    rw [bytes_app, a.1, b.1, List.flatMap_cons]

theorem threaded_text {P : Headers → Prop} {p : Params} (hp : p.part ≤ 0) (threads : List (List Tree))
    (h : ∀ t ∈ Window p.offset p.limit threads, ∀ m ∈ Tree.msgsList t, shown p m = true → Readable P p.opts.duplicate m) :
    bytes (showThreaded .text p threads.length threads).1 = (Window p.offset p.limit threads).flatMap (fun t => (depths p 0 t).flatMap (msgText p.opts)) ∧
    (showThreaded .text p threads.length threads).2 = false := by
  unfold showThreaded
  simp only []
  rw [window_spec]
  have b := all_text (showMessages .text p 0) (fun t => (depths p 0 t).flatMap (msgText p.opts)) (Window p.offset p.limit threads) (by
    intro t ht
    have := trees_text (P := P) hp t 0 (h t ht)
    unfold showMessages
    refine ⟨?_, this.2⟩
    simp only [bytes_app, this.1]
    simp [bytes])
  refine ⟨?_, b.2⟩
  simp only [bytes_app, b.1]
  simp [bytes]

end Notmuch.Show
