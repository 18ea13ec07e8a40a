import Verif.Proofs.Compat3

/-! # C71: the replacements for functions of the C library -/

namespace Notmuch.Props
open Notmuch.Compat

/-! ## timegm -/

/-- **C71.** `timegm` gives the seconds since 1970-01-01 for every day that comes after it in the calendar, counted day by day, as long as an `int` can hold them. -/
theorem C71_timegm (n hour min sec : Nat) (hb : n * 86400 + hour * 3600 + min * 60 + sec < 2 ^ 31) :
    Compat.timegm ((Date.since1970 n).tm hour min sec) = some ((n * 86400 + hour * 3600 + min * 60 + sec : Nat) : Int) := by
  obtain ⟨h1, h2, h3⟩ := since_valid n
  have := timegm_number h1 h2 (hour := hour) (min := min) (sec := sec) (by rw [h3]; omega)
  rw [this, h3]; rfl

/-- **C71.** These are all the days that there are from then on. -/
theorem C71_days (d : Date) : (∃ n, Date.since1970 n = d) ↔ d.Valid ∧ 1970 ≤ d.year :=
  ⟨fun ⟨n, h⟩ => h ▸ ⟨(since_valid n).1, (since_valid n).2.1⟩, fun h => reached_all h.1 h.2⟩

/-- **C71.** There it is the `timegm` that C54 takes from the C library. -/
theorem C71_timegm_library (d : Date) (hv : d.Valid) (hy : 1970 ≤ d.year) (hour min sec : Nat) (wday : Int)
    (hb : Time.seconds ⟨sec, min, hour, d.day, d.month - 1, d.year - 1900, wday⟩ < 2 ^ 31) :
    Compat.timegm (d.tm hour min sec) = Time.timegm ⟨sec, min, hour, d.day, d.month - 1, d.year - 1900, wday⟩ := by
  have hn := number_eq hv hy
  obtain ⟨n, hr⟩ := reached_all hv hy
  have h0 : d.number = n := by rw [← hr]; exact (since_valid n).2.2
  have e : Time.seconds ⟨sec, min, hour, d.day, d.month - 1, d.year - 1900, wday⟩ = d.number * 86400 + hour * 3600 + min * 60 + sec := by
    unfold Time.seconds
    simp only
    rw [Int.sub_add_cancel, hn]; omega
  rw [e] at hb
  rw [timegm_number hv hy (by omega)]
  unfold Time.timegm
  rw [e, if_neg (by omega)]

/-! ## strsep and strcasestr -/

/-- **C71.** Calling `strsep` until it returns `NULL` gives the pieces of the string between the delimiters, which are still there when all is done; in the memory just the delimiters
have become NULs. -/
theorem C71_strsep (delim pre s post : Str) (hd : 0 ∉ delim) (hs : 0 ∉ s) :
    let r := tokens delim (s.length + 2) (pre ++ s ++ 0 :: post) (some pre.length)
    r.1.map (cstr r.2) = pieces delim s ∧ r.2 = pre ++ s.map (fun c => if c ∈ delim then 0 else c) ++ 0 :: post := by
  intro r
  have := tokens_spec hd post (s.length + 2) s pre (by omega) hs
  rw [← List.append_assoc] at this
  exact ⟨this.2, by rw [List.append_assoc]; exact this.1⟩

/-- **C71.** With the delimiters of `notmuch reply` they are the fields of C49. -/
theorem C71_strsep_reply (s : Str) : pieces [46, 32, 9] s = Reply.fields s := by
  induction s with
  | nil => rfl
  | cons c s ih =>
    unfold pieces Reply.fields
    rw [ih]
    simp only [List.mem_cons, List.not_mem_nil, or_false]
    rfl

/-- **C71.** `strcasestr` finds the first place where the needle is, whatever the case of letters, and nothing just if it is nowhere. -/
theorem C71_strcasestr (haystack needle : Str) :
    (∀ i, Compat.strcasestr haystack needle = some i ↔ Found haystack needle i ∧ ∀ j, j < i → ¬ Found haystack needle j) ∧
    (Compat.strcasestr haystack needle = none ↔ ∀ j, ¬ Found haystack needle j) := by
  unfold Compat.strcasestr
  rcases loop_spec needle haystack 0 with ⟨i, e, hf, hn⟩ | ⟨e, hn⟩
  · rw [e]
    refine ⟨fun k => ⟨fun h => ?_, fun ⟨h1, h2⟩ => ?_⟩, ⟨(fun h => by cases h), fun h => absurd hf (h i)⟩⟩
    · injection h with h
      have : k = i := by omega
      subst this; exact ⟨hf, hn⟩
    · have : i = k := by
        rcases Nat.lt_trichotomy i k with h | h | h
        · exact absurd hf (h2 i h)
        · exact h
        · exact absurd h1 (hn k h)
      rw [this, Nat.zero_add]
  · rw [e]
    exact ⟨fun k => ⟨(fun h => by cases h), fun h => absurd h.1 (hn k)⟩, fun _ => hn, fun _ => rfl⟩

/-- **C71.** It finds something just if the `strcasestr` that C34 and C49 take from the C library does. -/
theorem C71_strcasestr_library (haystack needle : Str) : Compat.strcasestr haystack needle ≠ none ↔ Query.strcasestr haystack needle = true := library_found haystack needle

/-! ## getdelim and getline -/

/-- **C71.** `getdelim` writes only into the block that it was given or got, whatever is read and whichever allocations fail, and so on for all further calls with that buffer, if it
began with `NULL` or with a block of `*n` bytes. -/
theorem C71_getdelim_safe (alloc : Nat → Bool) (delim : UInt8) (b : LineBuf) (hb : ∀ s, b.block = some s → 0 < b.n ∧ b.n ≤ s) (stream : Str) :
    ∃ r b' line rest, getdelim alloc delim b stream = .ret r b' line rest ∧ ∀ s, b'.block = some s → 0 < b'.n ∧ b'.n ≤ s := getdelim_safe alloc delim b hb stream

/-- **C71.** What it returns is in the range of `ssize_t`, and the length of the buffer never gets beyond that, even if the line is longer. -/
theorem C71_getdelim_range (alloc : Nat → Bool) (delim : UInt8) (b : LineBuf) (hb : b.n ≤ 2 ^ 63) (stream : Str) (r : Int) (b' : LineBuf) (line : Option Str) (rest : Str)
    (h : getdelim alloc delim b stream = .ret r b' line rest) : r < 2 ^ 63 ∧ b'.n ≤ 2 ^ 63 := getdelim_small alloc delim b hb stream h

/-- **C71.** While there is memory, it reads up to the delimiter and with it, or to the end of the file; it returns how much that is, or -1 if there is nothing. -/
theorem C71_getdelim (alloc : Nat → Bool) (ha : ∀ n, alloc n = true) (delim : UInt8) (b : LineBuf) (hb : ∀ s, b.block = some s → 0 < b.n ∧ b.n ≤ s) (stream : Str)
    (hl : stream.length + 1 < 2 ^ 63) :
    ∃ b' t rest, getdelim alloc delim b stream = .ret (if stream = [] then -1 else t.length) b' (some t) rest ∧ stream = t ++ rest ∧
      delim ∉ t.dropLast ∧ (rest ≠ [] → t.getLast? = some delim) ∧ (stream ≠ [] → t ≠ []) := by
  obtain ⟨b', t, rest, e, h1, _, h3, h4, h5⟩ := getdelim_reads alloc ha delim b hb stream hl
  refine ⟨b', t, rest, ?_, h1, h3, h4, fun h ht => h (h5 ht)⟩
  rw [e]
  by_cases hs : stream = []
  · have : t = [] := by rw [hs] at h1; exact (List.nil_eq_append_iff.1 h1).1
    rw [if_pos hs, this]; rfl
  · rw [if_neg hs, if_pos]
    intro h0; exact hs (h5 (List.eq_nil_of_length_eq_zero h0))

/-- **C71.** Calling `getline` until it returns -1 gives the lines of the file. -/
theorem C71_getline (alloc : Nat → Bool) (ha : ∀ n, alloc n = true) (s : Str) (hl : s.length + 1 < 2 ^ 63) :
    ∃ ls, getlines alloc (s.length + 1) ⟨none, 0⟩ s = some ls ∧ Lines s ls :=
  getlines_spec alloc ha (s.length + 1) ⟨none, 0⟩ s (fun _ h => by cases h) (by omega) hl

/-! ## Concrete cases -/

/-- **C71, concrete cases.** 2024-02-29 12:34:56; fields of a host name; a needle; and lines that make the buffer grow. -/
theorem C71_example : Compat.timegm ((⟨2024, 2, 29⟩ : Date).tm 12 34 56) = some 1709210096 ∧
    (let r := tokens (bs ". \t") 20 (bs "mx.example.org\x00") (some 0); (r.1, r.1.map (cstr r.2))) = ([0, 3, 11], [bs "mx", bs "example", bs "org"]) ∧
    Compat.strcasestr (bs "Some One <One@Example.org>") (bs "one@") = some 10 ∧
    getlines (fun _ => true) 400 ⟨none, 0⟩ (List.replicate 300 97 ++ bs "\nb\n\nc") = some [List.replicate 300 97 ++ bs "\n", bs "b\n", bs "\n", bs "c"] := by
  refine ⟨?_, ?_, ?_, ?_⟩ <;> decide +kernel

/-- The hypotheses are met: the last second that an `int` can hold, and a buffer in use. -/
example : (⟨2038, 1, 19⟩ : Date).Valid ∧ Compat.timegm ((⟨2038, 1, 19⟩ : Date).tm 3 14 7) = some 2147483647 ∧
    (∀ s, (⟨some 64, 64⟩ : LineBuf).block = some s → 0 < (⟨some 64, 64⟩ : LineBuf).n ∧ (⟨some 64, 64⟩ : LineBuf).n ≤ s) := by
  refine ⟨⟨by decide, by decide, by decide, by decide⟩, by decide +kernel, fun s h => ?_⟩
  injection h with h
  exact ⟨by decide, by simp only; omega⟩

/-! ## What does not hold -/

/-- **C71, what does not hold.** Before 1970 `timegm` does not count leap days: 1968-01-01. -/
theorem C71_timegm_counterexample : ¬ ∀ tm : Compat.Tm, ∀ t, Compat.timegm tm = some t → t = Time.seconds ⟨tm.sec, tm.min, tm.hour, tm.mday, tm.mon, tm.year, 0⟩ := by
  intro h
  have := h ⟨68, 0, 1, 0, 0, 0⟩ (-63072000) (by decide +kernel)
  revert this
  decide +kernel

/-- **C71, what does not hold.** In the second after 2038-01-19 03:14:07 its computation overflows, though `time_t` is wider. -/
theorem C71_timegm_overflow_counterexample : ¬ ∀ d : Date, d.Valid → 1970 ≤ d.year → ∀ h m s : Nat, h < 24 → m < 60 → s < 60 → Compat.timegm (d.tm h m s) ≠ none := by
  intro h
  exact h ⟨2038, 1, 19⟩ ⟨by decide, by decide, by decide, by decide⟩ (by decide) 3 14 8 (by decide) (by decide) (by decide) (by decide +kernel)

/-- **C71, what does not hold.** If the first allocation fails, `getdelim` leaves a length of 120 with the block as it was: with an empty block, a further call writes outside of it. -/
theorem C71_getdelim_counterexample : ¬ ∀ (alloc alloc' : Nat → Bool) (b : LineBuf) (s : Str), (∀ k, b.block = some k → b.n ≤ k) → ∀ r b' line rest, getdelim alloc 10 b s = .ret r b' line rest →
    getdelim alloc' 10 b' rest ≠ .fault := by
  intro h
  exact h (fun _ => false) (fun _ => true) ⟨some 0, 0⟩ [97] (fun k e => by injection e with e; subst e; exact Nat.le_refl _) (-1) ⟨some 0, 120⟩ none [97] (by decide +kernel) (by decide +kernel)

end Notmuch.Props
