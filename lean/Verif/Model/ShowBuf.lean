/-!
# emacs/notmuch-show.el: a thread in a buffer

The messages of a buffer of `notmuch-show`, where point is, which messages are open, and what is tagged.  What `notmuch show` prints is given by the
world: the messages (in order, with whether they match and are excluded) and the tags of each message.  Tags and lists of tag changes are abstract: `upd`
is `notmuch-update-tags`, and what `notmuch tag` does to a message (C76 relates the two).  Left out: windows, the text, headers and parts, `notmuch tag`
failing, leaving for another thread (`pop-at-end`), scrolling, which only moves point (`goto`).
-/

namespace Notmuch.ShowBuf

variable {ι τ γ : Type} [DecidableEq ι] [DecidableEq τ]

/-- The properties of a message that matter (emacs/notmuch-show.el:1258-1265, 1773-1775, 1927). -/
structure Msg (ι τ : Type) where
  id : ι
  isMatch : Bool
  excluded : Bool
  tags : τ
  visible : Bool
  seen : Bool
deriving DecidableEq

/-- Where point is: at the beginning of a message, further inside it, or at the end of the buffer. -/
inductive Pos where
  | top (i : Nat)
  | inside (i : Nat)
  | eob
deriving DecidableEq

/-- The buffer: its messages (at least one) and point. -/
structure Buf (ι τ : Type) where
  msgs : List (Msg ι τ)
  pos : Pos
deriving DecidableEq

/-- The database: the messages that `notmuch show` prints for the thread, with whether they match and are excluded, and the tags of every message. -/
structure World (ι τ : Type) where
  thread : List (ι × Bool × Bool)
  tags : ι → τ

/-- The buffer, the world, and what was given to `notmuch tag` since the buffer was built: by the hook that marks messages read (true) or a command. -/
structure State (ι τ γ : Type) where
  buf : Buf ι τ
  world : World ι τ
  log : List (Bool × List ι × γ)

/-- The message at point (`notmuch-show-message-extent`, emacs/notmuch-show.el:1731-1738): at the end of the buffer it goes back to the last message. -/
def cur (b : Buf ι τ) : Nat :=
  match b.pos with
  | .top i => i
  | .inside i => i
  | .eob => b.msgs.length - 1

/-- Is the message at point open (`notmuch-show-message-visible-p`, emacs/notmuch-show.el:1896-1898)? -/
def curVisible (b : Buf ι τ) : Bool := (b.msgs[cur b]?.map (·.visible)).getD false

/-- `notmuch-show-goto-message-next` (emacs/notmuch-show.el:1746-1752). -/
def gotoNext (b : Buf ι τ) : Buf ι τ × Bool :=
  if cur b + 1 < b.msgs.length then ({ b with pos := .top (cur b + 1) }, true) else (b, false)

/-- `notmuch-show-goto-message-previous` (emacs/notmuch-show.el:1754-1760). -/
def gotoPrevious (b : Buf ι τ) : Buf ι τ × Bool :=
  if cur b = 0 then ({ b with pos := .top 0 }, false) else ({ b with pos := .top (cur b - 1) }, true)

/-- `notmuch-show-next-message` (emacs/notmuch-show.el:2105-2115). -/
def nextMessage (b : Buf ι τ) : Buf ι τ :=
  let r := gotoNext b
  if r.2 then r.1 else { b with pos := .eob }

/-- `notmuch-show-previous-message` (emacs/notmuch-show.el:2117-2123). -/
def previousMessage (b : Buf ι τ) : Buf ι τ :=
  if b.pos = .top (cur b) then (gotoPrevious b).1 else { b with pos := .top (cur b) }

/-- The loops of `notmuch-show-next-open-message` and `notmuch-show-next-matching-message` (emacs/notmuch-show.el:2133-2135, 2147-2149).  The number bounds
the turns. -/
def nextWhere (p : Msg ι τ → Bool) : Nat → Buf ι τ → Buf ι τ × Bool
  | 0, b => (b, false)
  | n + 1, b =>
    let r := gotoNext b
    if r.2 && !(r.1.msgs[cur r.1]?.map p).getD false then nextWhere p n r.1 else r

/-- `notmuch-show-next-open-message` (emacs/notmuch-show.el:2125-2141), `notmuch-show-next-matching-message` (2143-2151). -/
def nextThat (p : Msg ι τ → Bool) (b : Buf ι τ) : Buf ι τ × Bool :=
  let r := nextWhere p b.msgs.length b
  if r.2 then r else ({ r.1 with pos := .eob }, false)

/-- Change the properties of the message at point (`notmuch-show-set-prop`, emacs/notmuch-show.el:1808-1813; `notmuch-show-message-visible`, 1773-1775). -/
def setCur (b : Buf ι τ) (f : Msg ι τ → Msg ι τ) : Buf ι τ := { b with msgs := b.msgs.modify (cur b) f }

/-- `notmuch tag` of messages given by their ids (`notmuch-tag`, emacs/notmuch-tag.el:472-504), noted in the log. -/
def callTag (upd : γ → τ → τ) (byHook : Bool) (s : State ι τ γ) (ids : List ι) (ch : γ) : State ι τ γ :=
  { s with world := { s.world with tags := fun i => if i ∈ ids then upd ch (s.world.tags i) else s.world.tags i }
           log := s.log ++ [(byHook, ids, ch)] }

/-- `notmuch-show-tag-message` (emacs/notmuch-show.el:2254-2262). -/
def tagMessage (upd : γ → τ → τ) (byHook : Bool) (s : State ι τ γ) (ch : γ) : State ι τ γ :=
  match s.buf.msgs[cur s.buf]? with
  | none => s
  | some m =>
    if upd ch m.tags = m.tags then s
    else
      let s' := callTag upd byHook s [m.id] ch
      { s' with buf := setCur s'.buf fun x => { x with tags := upd ch m.tags } }

/-- `notmuch-show-tag` (emacs/notmuch-show.el:2264-2274). -/
def tag (upd : γ → τ → τ) (s : State ι τ γ) (ch : γ) : State ι τ γ :=
  match s.buf.msgs[cur s.buf]? with
  | none => s
  | some m =>
    let s' := callTag upd false s [m.id] ch
    { s' with buf := setCur s'.buf fun x => { x with tags := upd ch m.tags } }

/-- `notmuch-show-tag-all` (emacs/notmuch-show.el:2276-2291), with `notmuch-show-get-messages-ids-search` (1839-1849). -/
def tagAll (upd : γ → τ → τ) (s : State ι τ γ) (ch : γ) : State ι τ γ :=
  let s' := callTag upd false s (s.buf.msgs.map (·.id)).reverse ch
  { s' with buf := { s'.buf with msgs := s'.buf.msgs.map fun m => { m with tags := upd ch m.tags } } }

/-- `notmuch-show-seen-current-message` (emacs/notmuch-show.el:1919-1927) with `notmuch-show-mark-read` (1906-1917), run by `notmuch-show-command-hook`
(1932-1946) after each command: `read` is the change of `notmuch-show-mark-read-tags`, none if there are none. -/
def seenCurrent (upd : γ → τ → τ) (read : Option γ) (s : State ι τ γ) : State ι τ γ :=
  match s.buf.msgs[cur s.buf]? with
  | none => s
  | some m =>
    if m.visible && !m.seen then
      let s' := match read with
        | none => s
        | some ch => tagMessage upd true s ch
      { s' with buf := setCur s'.buf fun x => { x with seen := true } }
    else s

/-- The messages of a new buffer (`notmuch-show-insert-msg`, emacs/notmuch-show.el:1262-1266): open if they match and are not excluded. -/
def insertAll (w : World ι τ) : List (Msg ι τ) :=
  w.thread.map fun x => ⟨x.1, x.2.1, x.2.2, w.tags x.1, x.2.1 && !x.2.2, false⟩

/-- `notmuch-show-goto-first-wanted-message` (emacs/notmuch-show.el:2158-2170). -/
def gotoFirstWanted (b : Buf ι τ) : Buf ι τ :=
  let go := fun (b : Buf ι τ) =>
    let b := { b with pos := .top 0 }
    if curVisible b then b else (nextThat (·.visible) b).1
  let b := go b
  if b.pos = .eob then go { b with msgs := b.msgs.map fun m => { m with visible := m.isMatch } } else b

/-- `notmuch-show-goto-message` (emacs/notmuch-show.el:1530-1538). -/
def gotoMessage (b : Buf ι τ) (id : ι) : Buf ι τ :=
  match b.msgs.findIdx? (fun m => decide (m.id = id)) with
  | some i => { b with pos := .top i }
  | none => { b with pos := .top 0 }

/-- The ids of the open messages (`notmuch-show-get-message-ids-for-open-messages`, emacs/notmuch-show.el:1960-1970). -/
def openIds (b : Buf ι τ) : List ι := (b.msgs.filter (·.visible)).map (·.id)

/-- `notmuch-show--build-buffer` (emacs/notmuch-show.el:1467-1504) without a state; none if nothing is printed, then the buffer is killed. -/
def build (w : World ι τ) : Option (State ι τ γ) :=
  if w.thread = [] then none
  else some { buf := gotoFirstWanted { msgs := insertAll w, pos := .eob }, world := w, log := [] }

/-- `notmuch-show-refresh-view` (emacs/notmuch-show.el:1560-1583) without prefix: `notmuch-show-capture-state` (1508-1519) and `notmuch-show-apply-state`
(1540-1558). -/
def refresh (s : State ι τ γ) : Option (State ι τ γ) :=
  if s.world.thread = [] then none
  else
    let opened := openIds s.buf
    let b : Buf ι τ := { msgs := (insertAll s.world).map fun m => { m with visible := decide (m.id ∈ opened) }, pos := .eob }
    match s.buf.msgs[cur s.buf]? with
    | some m => some { buf := gotoMessage b m.id, world := s.world, log := [] }
    | none => none

/-- What happens: commands in the buffer, any movement of point, and changes of the database by others. -/
inductive Cmd (ι τ γ : Type) where
  | next | previous | nextOpen | nextMatching
  | goto (p : Pos)
  /-- `notmuch-show-toggle-message` -/
  | toggle
  /-- `notmuch-show-open-or-close-all` -/
  | openAll (visible : Bool)
  | tag (ch : γ)
  /-- e.g. `notmuch-show-archive-message` -/
  | tagMessage (ch : γ)
  /-- e.g. `notmuch-show-archive-thread` -/
  | tagAll (ch : γ)
  | outside (f : World ι τ → World ι τ)

/-- A command without the hook (emacs/notmuch-show.el:2105-2151, 2254-2341, 2385-2436). -/
def command (upd : γ → τ → τ) (s : State ι τ γ) : Cmd ι τ γ → State ι τ γ
  | .next => { s with buf := nextMessage s.buf }
  | .previous => { s with buf := previousMessage s.buf }
  | .nextOpen => { s with buf := (nextThat (·.visible) s.buf).1 }
  | .nextMatching => { s with buf := (nextThat (·.isMatch) s.buf).1 }
  | .goto p => { s with buf := { s.buf with pos := p } }
  | .toggle => { s with buf := setCur s.buf fun m => { m with visible := !m.visible } }
  | .openAll v => { s with buf := { s.buf with msgs := s.buf.msgs.map fun m => { m with visible := v } } }
  | .tag ch => tag upd s ch
  | .tagMessage ch => tagMessage upd false s ch
  | .tagAll ch => tagAll upd s ch
  | .outside f => { s with world := f s.world }

/-- A command and the hook after it; after what others do there is no hook. -/
def step (upd : γ → τ → τ) (read : Option γ) (s : State ι τ γ) (c : Cmd ι τ γ) : State ι τ γ :=
  match c with
  | .outside f => command upd s (.outside f)
  | c => seenCurrent upd read (command upd s c)

/-- A history of a buffer that is not built again. -/
def run (upd : γ → τ → τ) (read : Option γ) (s : State ι τ γ) (cs : List (Cmd ι τ γ)) : State ι τ γ := cs.foldl (step upd read) s

end Notmuch.ShowBuf
