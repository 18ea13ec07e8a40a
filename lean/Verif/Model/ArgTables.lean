import Verif.Model.Args

/-!
# The tables of the commands

Variables are numbered; those of one command are different from each other.
-/

namespace Notmuch.Args

def kw (l : List (String × Int)) : Keywords := ⟨l.map (fun p => (bs p.1, p.2)), true⟩
def boolOpt (name : String) (var : Nat) : Opt := .entry ⟨.bool, some (bs name), var, none⟩
def intOpt (name : String) (var : Nat) : Opt := .entry ⟨.int, some (bs name), var, none⟩
def stringOpt (name : String) (var : Nat) (allowEmpty : Bool := false) : Opt := .entry ⟨.string allowEmpty, some (bs name), var, none⟩
def keywordOpt (name : String) (var : Nat) (l : List (String × Int)) (noArg : Option Str := none) : Opt := .entry ⟨.keyword (kw l) noArg, some (bs name), var, none⟩

/-- `notmuch_shared_options`, notmuch.c:59-69. -/
def sharedOptions : List Opt := [
  boolOpt "version" 1, boolOpt "help" 2, stringOpt "uuid" 3, keywordOpt "query" 4 [("infix", 0), ("sexp", 1)]]

/-- `notmuch_shared_indexing_options`, notmuch.c:130-140. -/
def sharedIndexingOptions : List Opt := [
  .entry ⟨.keyword (kw [("false", 0), ("true", 1), ("auto", 2), ("nostash", 3)]) none, some (bs "decrypt"), 5, some 6⟩]

/-- notmuch.c:475-479. -/
def mainOptions : List Opt := [stringOpt "config" 10 true, .inherit sharedOptions]

/-- `common_options`, notmuch-search.c:781-794. -/
def searchCommonOptions : List Opt := [
  keywordOpt "sort" 10 [("oldest-first", 0), ("newest-first", 1)],
  keywordOpt "format" 11 [("json", 0), ("sexp", 3), ("text", 1), ("text0", 2)],
  intOpt "format-version" 12]

/-- notmuch-search.c:802-821. -/
def searchOptions : List Opt := [
  keywordOpt "output" 13 [("summary", 1), ("threads", 2), ("messages", 4), ("files", 8), ("tags", 16)],
  keywordOpt "exclude" 14 [("true", 1), ("false", 2), ("flag", 0), ("all", 3)],
  intOpt "offset" 15, intOpt "limit" 16, intOpt "duplicate" 17,
  .inherit searchCommonOptions, .inherit sharedOptions]

/-- notmuch-search.c:869-888. -/
def addressOptions : List Opt := [
  .entry ⟨.flags (kw [("sender", 32), ("recipients", 64), ("count", 128), ("address", 256)]), some (bs "output"), 13, none⟩,
  keywordOpt "exclude" 14 [("true", 1), ("false", 2)],
  keywordOpt "deduplicate" 18 [("no", 0), ("mailbox", 1), ("address", 2)],
  .inherit searchCommonOptions, .inherit sharedOptions]

/-- notmuch-show.c:1337-1370. -/
def showOptions : List Opt := [
  keywordOpt "sort" 10 [("oldest-first", 0), ("newest-first", 1)],
  keywordOpt "format" 11 [("json", 1), ("text", 3), ("sexp", 2), ("mbox", 4), ("raw", 5)],
  intOpt "format-version" 12,
  boolOpt "exclude" 13,
  .entry ⟨.bool, some (bs "entire-thread"), 14, some 15⟩,
  boolOpt "unthreaded" 16, intOpt "part" 17,
  keywordOpt "decrypt" 18 [("false", 0), ("auto", 2), ("true", 3), ("stash", 1)] (some (bs "true")),
  boolOpt "verify" 19, boolOpt "body" 20, boolOpt "include-html" 21, intOpt "duplicate" 22, intOpt "limit" 23, intOpt "offset" 24,
  .inherit sharedOptions]

/-- notmuch-reply.c:725-746. -/
def replyOptions : List Opt := [
  keywordOpt "format" 10 [("default", 0), ("json", 1), ("sexp", 2), ("headers-only", 3)],
  intOpt "format-version" 12,
  keywordOpt "reply-to" 13 [("all", 1), ("sender", 0)],
  keywordOpt "decrypt" 18 [("false", 0), ("auto", 2), ("true", 3)] (some (bs "true")),
  intOpt "duplicate" 22,
  .inherit sharedOptions]

/-- notmuch-count.c:169-181. -/
def countOptions : List Opt := [
  keywordOpt "output" 10 [("threads", 0), ("messages", 1), ("files", 2)],
  boolOpt "exclude" 11, boolOpt "lastmod" 12, boolOpt "batch" 13, stringOpt "input" 14,
  .inherit sharedOptions]

/-- The keywords of `--include`, notmuch-dump.c:382-385 and notmuch-restore.c:258-261: there is no `{ 0, 0 }` after them. -/
def includeKeywords : Keywords := ⟨[(bs "config", 2), (bs "properties", 4), (bs "tags", 1)], false⟩

/-- notmuch-dump.c:377-390. -/
def dumpOptions : List Opt := [
  keywordOpt "format" 10 [("sup", 2), ("batch-tag", 1)],
  .entry ⟨.flags includeKeywords, some (bs "include"), 11, none⟩,
  stringOpt "output" 12, boolOpt "gzip" 13,
  .inherit sharedOptions]

/-- notmuch-restore.c:252-267. -/
def restoreOptions : List Opt := [
  keywordOpt "format" 10 [("auto", 0), ("batch-tag", 1), ("sup", 2)],
  .entry ⟨.flags includeKeywords, some (bs "include"), 11, none⟩,
  stringOpt "input" 12, boolOpt "accumulate" 13,
  .inherit sharedOptions]

/-- notmuch-config.c:609-612. -/
def configOptions : List Opt := [boolOpt "database" 10]

/-- notmuch-compact.c:37-42. -/
def compactOptions : List Opt := [stringOpt "backup" 10, boolOpt "quiet" 11, .inherit sharedOptions]

/-- notmuch-insert.c:488-497. -/
def insertOptions : List Opt := [
  stringOpt "folder" 10 true, boolOpt "create-folder" 11, boolOpt "keep" 12, boolOpt "hooks" 13, boolOpt "world-readable" 14,
  .inherit sharedIndexingOptions, .inherit sharedOptions]

/-- notmuch-new.c:1136-1145. -/
def newOptions : List Opt := [
  boolOpt "quiet" 10, boolOpt "verbose" 11, boolOpt "debug" 12, boolOpt "full-scan" 13, boolOpt "hooks" 14,
  .inherit sharedIndexingOptions, .inherit sharedOptions]

/-- notmuch-reindex.c:102-106. -/
def reindexOptions : List Opt := [.inherit sharedIndexingOptions, .inherit sharedOptions]

/-- notmuch-tag.c:240-246. -/
def tagOptions : List Opt := [boolOpt "batch" 10, stringOpt "input" 11, boolOpt "remove-all" 12, .inherit sharedOptions]

/-- Those of which every array of keywords has an end. -/
def soundTables : List (List Opt) := [
  mainOptions, searchOptions, addressOptions, showOptions, replyOptions, countOptions, configOptions, compactOptions, insertOptions, newOptions, reindexOptions, tagOptions]

/-- All of them. -/
def tables : List (List Opt) := soundTables ++ [dumpOptions, restoreOptions]

end Notmuch.Args
