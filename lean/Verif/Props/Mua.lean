import Verif.Proofs.Mua4

namespace Notmuch.Props
open Notmuch.Mua

/-- **C80** (nothing is evaluated but what is meant): for all arguments and in every directory, the text that Emacs is given is read as the program that the options mean, in which every argument is a
string and is that argument, byte for byte. -/
theorem C80_program (argv : List Str) (os : List Opt) (ps : List Str) (pwd : Str) (x : Sexp) (ha : Args argv os ps) (hm : meant os ps pwd = some x) :
    ∃ text, ReadsAs text x ∧ (∀ y, ReadsAs text y → y = x) ∧ script argv pwd =
      (if os.contains .print then .print (echo text)
      else if os.contains .client then
        .exec true ((if os.contains .noWindow then [bs "-nw"] else []) ++ (if os.contains .createFrame || os.contains .autoDaemon then [bs "-c"] else []) ++
          (if os.contains .autoDaemon then [bs "--alternate-editor="] else []) ++ [bs "--eval", text])
      else .exec false ((if os.contains .noWindow then [bs "-nw"] else []) ++ [bs "--eval", text])) := by
  obtain ⟨st, h1, I⟩ := options_of ha argv.length {} [] (Nat.le_refl _) inv_init
  rw [List.nil_append] at I
  obtain ⟨st', text, h2, h3, h4, e1, e2, e3, e4, e5⟩ := (program_of I ps pwd).2 x hm
  refine ⟨text, h4, fun y hy => reads_unique hy h4, ?_⟩
  unfold script
  rw [h1]
  dsimp only
  rw [h2]
  dsimp only
  rw [h3]
  dsimp only
  rw [e1, e2, e3, e4, e5, I.print, I.noWindow, I.client, I.createFrame, I.autoDaemon]

/-- **C80** (errors): the script does something just if the arguments are options and words that go together; otherwise there is an error message, or the manual page. -/
theorem C80_accepts (argv : List Str) (pwd : Str) :
    (∃ os ps, Args argv os ps ∧ (meant os ps pwd).isSome = true) ↔ ((∃ t, script argv pwd = .print t) ∨ ∃ c as, script argv pwd = .exec c as) := by
  constructor
  · rintro ⟨os, ps, ha, hm⟩
    obtain ⟨x, hx⟩ := Option.isSome_iff_exists.1 hm
    obtain ⟨text, _, _, h⟩ := C80_program argv os ps pwd x ha hx
    rw [h]
    cases os.contains .print with
    | true => exact .inl ⟨_, rfl⟩
    | false =>
      cases os.contains .client with
      | true => exact .inr ⟨_, _, rfl⟩
      | false => exact .inr ⟨_, _, rfl⟩
  · intro h
    cases ho : options argv.length {} argv with
    | fail =>
      have : script argv pwd = .fail := by unfold script; rw [ho]
      rw [this] at h
      rcases h with ⟨_, h⟩ | ⟨_, _, h⟩ <;> cases h
    | manual =>
      have : script argv pwd = .manual := by unfold script; rw [ho]
      rw [this] at h
      rcases h with ⟨_, h⟩ | ⟨_, _, h⟩ <;> cases h
    | ok p =>
      obtain ⟨st, ps⟩ := p
      obtain ⟨os, ha⟩ := args_of_options _ _ _ _ _ (Nat.le_refl _) ho
      refine ⟨os, ps, ha, ?_⟩
      cases hm : meant os ps pwd with
      | some x => rfl
      | none =>
        obtain ⟨st2, h2, I⟩ := options_of ha argv.length {} [] (Nat.le_refl _) inv_init
        rw [ho] at h2
        cases h2
        have : script argv pwd = .fail := by
          unfold script
          rw [ho]
          dsimp only
          rcases (program_of I ps pwd).1 hm with ⟨st', h3, h4⟩ | h3
          · rw [h3]; dsimp only; rw [h4]
          · rw [h3]
        rw [this] at h
        rcases h with ⟨_, h⟩ | ⟨_, _, h⟩ <;> cases h

/-- **C80** (headers): the addresses of one kind of option are in its header with a comma and a space between; those given without an option are in To, with a comma and a space after each. -/
theorem C80_headers (os : List Opt) (as : List Str) :
    (∀ k : Header, typed k.form none (formsFrom [] os) = ((os.filterMap k.value).intersperse (bs ", ")).flatten) ∧
    typed (bs "message-goto-to") none (addressForms as) = as.flatMap (fun a => a ++ bs ", ") :=
  ⟨fun k => typed_options k os [] none, typed_addresses as none⟩

/-- Not so: with addresses of both kinds, the last of the options and the first of the words become one. -/
theorem C80_to_counterexample :
    (meant [.to (bs "a@x")] [bs "b@y"] (bs "/")).isSome = true ∧ typed (bs "message-goto-to") none (formsFrom [] [.to (bs "a@x")] ++ addressForms [bs "b@y"]) = bs "a@xb@y, " := by
  refine ⟨?_, ?_⟩ <;> decide +kernel

/-- Not so: `--` ends the options but is itself taken for an address. -/
theorem C80_dashes_counterexample :
    Args [bs "--", bs "a@x"] [] [bs "--", bs "a@x"] ∧ typed (bs "message-goto-to") none (addressForms [bs "--", bs "a@x"]) = bs "--, a@x, " :=
  ⟨.done _ (.inr ⟨_, _, rfl, .inl rfl⟩), by decide +kernel⟩

/-- Not so: what `--print` prints is not what would be evaluated; spaces are lost. -/
theorem C80_print_counterexample : ∃ t u, script [bs "-s", bs "a  b", bs "--print"] (bs "/") = .print t ∧ script [bs "-s", bs "a  b"] (bs "/") = .exec false [bs "--eval", u] ∧ t ≠ u ∧
    lex t ≠ lex u := by
  refine ⟨_, _, rfl, rfl, ?_, ?_⟩ <;> decide +kernel

/-- Quotes, backslashes and parentheses in a subject, an address of each kind, and a directory: the arguments are as meant, and what is run. -/
theorem C80_example :
    let argv := [bs "-s", bs "\\\") (delete-file \"x\")", bs "--client", bs "--cc=a", bs "-cb", bs "--auto-daemon", bs "to\\"]
    Args argv [.subject (bs "\\\") (delete-file \"x\")"), .client, .cc (bs "a"), .cc (bs "b"), .autoDaemon] [bs "to\\"] ∧
    script argv (bs "/a \"b\"") = .exec true [bs "-c", bs "--alternate-editor=", bs "--eval",
      bs "(prog1 'done (require 'notmuch) (cd \"/a \\\"b\\\"\") (notmuch-mua-new-mail)  (message-goto-subject) (insert \"\\\\\\\") (delete-file \\\"x\\\")\") (message-goto-cc) (insert \"a\") (message-goto-cc) (insert \", b\") (message-goto-to) (insert \"to\\\\, \") (message-add-action #'save-buffers-kill-terminal 'exit))"] := by
  refine ⟨?_, by decide +kernel⟩
  refine Args.next ("-s", Opt.subject) _ (by simp) ?_
  refine Args.flag ("--client", .client) (by simp) ?_
  refine Args.long ("--cc=", Opt.cc) (bs "a") (by simp) ?_
  refine Args.short ("-c", Opt.cc) (bs "b") (by simp) (by decide) ?_
  refine Args.flag ("--auto-daemon", .autoDaemon) (by simp) ?_
  exact .done _ (.inr ⟨_, _, rfl, .inr (.inr (by decide))⟩)

end Notmuch.Props
