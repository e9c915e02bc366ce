import Verif.Model.SequenceMap

/-!
# `src/unix/terminal.rs`: `Writer` and `TerminalWriteGuard`

The terminfo database is a parameter: a capability is absent, or it expands its parameters to
bytes, possibly failing after having produced some. The variables terminfo strings can set
(`Context`) are not modelled. The operating system's answers to `write(2)` are a list consumed one
by one. The field `log` is not part of the code; it records, in order, everything that was handed
over for output.
-/

namespace Mortal

/-- The terminfo capabilities the writer uses (`terminfo::capability`, `src/unix/terminal.rs:19`). -/
inductive Cap
  | exitAttributeMode | enterBold | enterItalics | enterReverse | enterUnderline
  | exitItalics | exitUnderline | setAForeground | setABackground
  | clearScreen | clrEol | clrEos
  | cursorUp | parmUp | parmDown | cursorLeft | parmLeft | cursorRight | parmRight
  | cursorAddress | cursorHome | cursorNormal | cursorInvisible
  | keypadXmit | keypadLocal | enterCaMode | exitCaMode | changeScrollRegion
deriving DecidableEq, Repr

/-- What `write(2)` answers: it took everything it was given, or `n` bytes (never more than it was
given), or it was interrupted, or it failed. (For `src/unix/terminal.rs:1021-1038`.) -/
inductive WriteRes
  | all | wrote (n : Nat) | eintr | fail
deriving DecidableEq, Repr

/-- Kinds of `io::Error` returned. (For `src/unix/terminal.rs:1176-1190`, 1412-1415.) -/
inductive IoErr
  | notSupported | expand | os | writeZero | utf8
deriving DecidableEq, Repr

/-- Ways for a call not to return: a panic; the operating system's answers have run out (the call
is still waiting or looping); the fuel standing for recursion depth has run out.
(For e.g. `src/unix/terminal.rs:291-297`, 1021-1038.) -/
inductive Stop
  | panic | blocked | fuel
deriving DecidableEq, Repr

/-- Something handed over for output. (For `src/unix/terminal.rs:1002-1047`.) -/
inductive Out
  | cap (c : Cap) (params : List Nat)
  | text (bytes : Bytes)
  | junk (bytes : Bytes)
deriving DecidableEq, Repr

/-- `src/unix/terminal.rs:93-99` `Writer`, with the device: `dev` are the bytes it has received,
`os` the answers to come, `log` the record described above. -/
structure WS where
  fg : Option Color
  bg : Option Color
  style : Style
  pending : Bytes
  capacity : Nat
  dev : Bytes
  os : List WriteRes
  log : List Out
deriving DecidableEq

/-- `src/unix/terminal.rs:46`. -/
def OUT_BUFFER_SIZE : Nat := 8192

/-- `src/unix/terminal.rs:1057-1067` `Writer::new`. -/
def WS.new (os : List WriteRes) : WS :=
  { fg := none, bg := none, style := 0#8, pending := [], capacity := OUT_BUFFER_SIZE, dev := [],
    os := os, log := [] }

/-- The terminfo database and the growth policy of `Vec`: `grow old needed` is the capacity after
growing a vector of capacity `old` to hold `needed` bytes. (For `src/unix/terminal.rs:66-74`, 1002-1013.) -/
structure WEnv where
  db : Cap → Option (List Nat → Bytes × Bool)
  grow : Nat → Nat → Nat

/-- `io::Result<()>` of a `&mut self` method, or no result. (For `src/unix/terminal.rs:664-1055`.) -/
inductive Outcome (σ : Type)
  | ok (s : σ)
  | err (e : IoErr) (s : σ)
  | stop (w : Stop)
deriving DecidableEq

/-- The `?` operator. (For `src/unix/terminal.rs:664-1055`.) -/
def Outcome.andThen {σ : Type} (o : Outcome σ) (f : σ → Outcome σ) : Outcome σ :=
  match o with
  | .ok s => f s
  | .err e s => .err e s
  | .stop w => .stop w

infixl:55 " >>? " => Outcome.andThen

/-- The state after a call, whether it succeeded or not. (For `src/unix/terminal.rs:664-1055`.) -/
def Outcome.state {σ : Type} : Outcome σ → Option σ
  | .ok s => some s
  | .err _ s => some s
  | .stop _ => none

/-- `src/unix/terminal.rs:1417-1424` `to_u32` (64-bit). -/
def toU32 (u : Nat) : Nat := if u > 2 ^ 32 - 1 then 2 ^ 32 - 1 else u

/-- `src/unix/terminal.rs:1399-1410` `color_code`. -/
def colorCode : Color → Nat
  | .black => 0 | .red => 1 | .green => 2 | .yellow => 3
  | .blue => 4 | .magenta => 5 | .cyan => 6 | .white => 7

/-- Result of `write_data`. (`src/unix/terminal.rs:1021-1038`.) -/
inductive DataRes
  | done (offset : Nat) (os : List WriteRes) (dev : Bytes) (r : Option IoErr)
  | blocked
deriving DecidableEq

/-- `src/unix/terminal.rs:1021-1038` `write_data`. As in the code every `write` is given the whole
of `buf` again. (The addition to `offset` is
not checked for overflow.) -/
def writeData (buf : Bytes) : List WriteRes → Nat → Bytes → DataRes
  | os, offset, dev =>
    if offset = buf.length then .done offset os dev none
    else
      match os with
      | [] => .blocked
      | .all :: os => writeData buf os (offset + buf.length) (dev ++ buf)
      | .wrote n :: os =>
        if n = 0 then .done offset os dev (some .writeZero)
        else writeData buf os (offset + min n buf.length) (dev ++ buf.take n)
      | .eintr :: os => writeData buf os offset dev
      | .fail :: os => .done offset os dev (some .os)
termination_by structural os => os

/-- `src/unix/terminal.rs:1015-1019` `flush`; `drain(..n)` panics if `n` exceeds the length. -/
def flush (s : WS) : Outcome WS :=
  match writeData s.pending s.os 0 s.dev with
  | .blocked => .stop .blocked
  | .done n os dev r =>
    if n > s.pending.length then .stop .panic
    else
      let s' := { s with pending := s.pending.drop n, os := os, dev := dev }
      match r with
      | none => .ok s'
      | some e => .err e s'

/-- `src/unix/terminal.rs:1002-1013` `write_bytes`. -/
def writeBytes (buf : Bytes) (s : WS) : Outcome WS :=
  (if buf.length + s.pending.length > s.capacity then flush s else .ok s) >>? fun s =>
  if buf.length > s.capacity then
    match writeData buf s.os 0 s.dev with
    | .blocked => .stop .blocked
    | .done _ os dev none => .ok { s with os := os, dev := dev, log := s.log ++ [.text buf] }
    | .done _ os dev (some e) => .err e { s with os := os, dev := dev }
  else .ok { s with pending := s.pending ++ buf, log := s.log ++ [.text buf] }

/-- `Vec` capacity after its length has become `len`. (For `src/unix/terminal.rs:1002-1013`.) -/
def grown (env : WEnv) (cap len : Nat) : Nat := if len ≤ cap then cap else env.grow cap len

/-- `src/unix/terminal.rs:1040-1046` `expand`: the expansion is appended directly to the output
buffer. -/
def expand (env : WEnv) (c : Cap) (params : List Nat) (f : List Nat → Bytes × Bool) (s : WS) :
    Outcome WS :=
  let (bytes, good) := f params
  let s' := { s with pending := s.pending ++ bytes,
                     capacity := grown env s.capacity (s.pending ++ bytes).length,
                     log := s.log ++ [if good then .cap c params else .junk bytes] }
  if good then .ok s' else .err .expand s'

/-- `src/unix/terminal.rs:631-647` `expand_opt!`. -/
def expandOpt (env : WEnv) (c : Cap) (params : List Nat) (s : WS) : Outcome WS :=
  match env.db c with
  | some f => expand env c params f s
  | none => .ok s

/-- `src/unix/terminal.rs:649-663` `expand_req!`. -/
def expandReq (env : WEnv) (c : Cap) (params : List Nat) (s : WS) : Outcome WS :=
  match env.db c with
  | some f => expand env c params f s
  | none => .err .notSupported s

/-- `if cond { f()? }`. (For e.g. `src/unix/terminal.rs:786-797`.) -/
def whenDo (cond : Bool) (f : WS → Outcome WS) (s : WS) : Outcome WS := if cond then f s else .ok s

/-- `src/unix/terminal.rs:741-751` `clear_attributes`. -/
def clearAttributes (env : WEnv) (s : WS) : Outcome WS :=
  if s.fg.isSome || s.bg.isSome || !s.style.isEmpty then
    expandOpt env .exitAttributeMode [] { s with fg := none, bg := none, style := 0#8 }
  else .ok s

/-- `src/unix/terminal.rs:783-802` `add_style`. -/
def addStyle (env : WEnv) (style : Style) (s : WS) : Outcome WS :=
  let add := Style.diff style s.style
  whenDo (add.contains .BOLD) (expandOpt env .enterBold []) s >>?
  whenDo (add.contains .ITALIC) (expandOpt env .enterItalics []) >>?
  whenDo (add.contains .REVERSE) (expandOpt env .enterReverse []) >>?
  whenDo (add.contains .UNDERLINE) (expandOpt env .enterUnderline []) >>? fun s =>
  .ok { s with style := s.style ||| add }

/-- `src/unix/terminal.rs:887-890` `set_fg_color`. -/
def setFgColor (env : WEnv) (c : Color) (s : WS) : Outcome WS :=
  expandOpt env .setAForeground [colorCode c] s
/-- `src/unix/terminal.rs:892-895` `set_bg_color`. -/
def setBgColor (env : WEnv) (c : Color) (s : WS) : Outcome WS :=
  expandOpt env .setABackground [colorCode c] s

/-- The mutually recursive attribute routines. (`src/unix/terminal.rs:741-895`.) -/
inductive AReq
  | setFg (c : Option Color) | setBg (c : Option Color) | clearFg | clearBg
  | removeStyle (s : Style) | setStyle (s : Style)

/-- `set_fg` (`src/unix/terminal.rs:753-766`), `set_bg` (768-781), `remove_style` (804-829),
`set_style` (831-850), `clear_fg` (869-876), `clear_bg` (878-885). They call each other; the first
argument bounds the depth of calls. -/
def areq (env : WEnv) : Nat → AReq → WS → Outcome WS
  | 0, _, _ => .stop .fuel
  | n + 1, .setFg fg, s =>
    if s.fg = fg then .ok s
    else
      (match fg with
        | some c => setFgColor env c s
        | none => areq env n .clearFg s) >>? fun s =>
      .ok { s with fg := fg }
  | n + 1, .setBg bg, s =>
    if s.bg = bg then .ok s
    else
      (match bg with
        | some c => setBgColor env c s
        | none => areq env n .clearBg s) >>? fun s =>
      .ok { s with bg := bg }
  | n + 1, .clearFg, s =>
    clearAttributes env s >>? areq env n (.setBg s.bg) >>? areq env n (.setStyle s.style)
  | n + 1, .clearBg, s =>
    clearAttributes env s >>? areq env n (.setFg s.fg) >>? areq env n (.setStyle s.style)
  | n + 1, .removeStyle style, s =>
    let remove := style &&& s.style
    if remove.intersects (Style.BOLD ||| Style.REVERSE) then
      clearAttributes env s >>? addStyle env (Style.diff s.style remove) >>?
        areq env n (.setFg s.fg) >>? areq env n (.setBg s.bg)
    else
      whenDo (remove.contains .ITALIC) (expandOpt env .exitItalics []) s >>?
      whenDo (remove.contains .UNDERLINE) (expandOpt env .exitUnderline []) >>? fun s =>
      .ok { s with style := Style.diff s.style remove }
  | n + 1, .setStyle style, s =>
    let add := Style.diff style s.style
    let remove := Style.diff s.style style
    if remove.intersects (Style.BOLD ||| Style.REVERSE) then
      clearAttributes env s >>? areq env n (.setFg s.fg) >>? areq env n (.setBg s.bg) >>?
        addStyle env style
    else addStyle env add s >>? areq env n (.removeStyle remove)

/-- Depth of calls allowed; enough for every call (C22). (For `src/unix/terminal.rs:741-895`.) -/
def AFUEL : Nat := 8

/-- `set_fg`. (`src/unix/terminal.rs:753-766`.) -/
def setFg (env : WEnv) (c : Option Color) : WS → Outcome WS := areq env AFUEL (.setFg c)
/-- `set_bg`. (`src/unix/terminal.rs:768-781`.) -/
def setBg (env : WEnv) (c : Option Color) : WS → Outcome WS := areq env AFUEL (.setBg c)
/-- `remove_style`. (`src/unix/terminal.rs:804-829`.) -/
def removeStyle (env : WEnv) (st : Style) : WS → Outcome WS := areq env AFUEL (.removeStyle st)
/-- `set_style`. (`src/unix/terminal.rs:831-850`.) -/
def setStyle (env : WEnv) (st : Style) : WS → Outcome WS := areq env AFUEL (.setStyle st)

/-- `src/unix/terminal.rs:856-867` `set_attrs`. -/
def setAttrs (env : WEnv) (fg bg : Option Color) (style : Style) (s : WS) : Outcome WS :=
  whenDo ((s.fg.isSome && fg.isNone) || (s.bg.isSome && bg.isNone)) (clearAttributes env) s >>?
  setStyle env style >>? setFg env fg >>? setBg env bg

/-- `src/unix/terminal.rs:993-1000` `write_styled`. -/
def writeStyled (env : WEnv) (fg bg : Option Color) (style : Style) (text : Bytes) (s : WS) :
    Outcome WS :=
  setAttrs env fg bg style s >>? writeBytes text >>? clearAttributes env

/-- `src/unix/terminal.rs:909-917` `move_up`. -/
def moveUp (env : WEnv) (n : Nat) (s : WS) : Outcome WS :=
  if n = 1 then expandReq env .cursorUp [] s
  else if n ≠ 0 then expandReq env .parmUp [toU32 n] s
  else .ok s
/-- `src/unix/terminal.rs:919-927` `move_down`. -/
def moveDown (env : WEnv) (n : Nat) (s : WS) : Outcome WS :=
  if n ≠ 0 then expandReq env .parmDown [toU32 n] s else .ok s
/-- `src/unix/terminal.rs:929-937` `move_left`. -/
def moveLeft (env : WEnv) (n : Nat) (s : WS) : Outcome WS :=
  if n = 1 then expandReq env .cursorLeft [] s
  else if n ≠ 0 then expandReq env .parmLeft [toU32 n] s
  else .ok s
/-- `src/unix/terminal.rs:939-947` `move_right`. -/
def moveRight (env : WEnv) (n : Nat) (s : WS) : Outcome WS :=
  if n = 1 then expandReq env .cursorRight [] s
  else if n ≠ 0 then expandReq env .parmRight [toU32 n] s
  else .ok s

/-- `src/unix/terminal.rs:953-967` `move_cursor`. -/
def moveCursor (env : WEnv) (pos : Cursor) (s : WS) : Outcome WS :=
  match env.db .cursorAddress, env.db .cursorHome with
  | addr, some home =>
    if pos = ⟨0, 0⟩ then expand env .cursorHome [] home s
    else
      match addr with
      | some a => expand env .cursorAddress [toU32 pos.line, toU32 pos.column] a s
      | none => .err .notSupported s
  | some a, none => expand env .cursorAddress [toU32 pos.line, toU32 pos.column] a s
  | none, none => .err .notSupported s

/-- `src/unix/terminal.rs:969-983` `set_cursor_mode`. -/
def setCursorMode (env : WEnv) (m : CursorMode) (s : WS) : Outcome WS :=
  match m with
  | .normal | .overwrite => expandOpt env .cursorNormal [] s
  | .invisible => expandOpt env .cursorInvisible [] s

/-- `src/unix/terminal.rs:707-730` `enter_screen`; `size` is the answer of `get_winsize`. -/
def enterScreen (env : WEnv) (size : Option Size) (s : WS) : Outcome WS :=
  (match env.db .changeScrollRegion, env.db .cursorHome with
    | some scroll, some home =>
      match size with
      | none => .err .os s
      | some size =>
        expandOpt env .enterCaMode [] s >>? fun s =>
        match usub size.lines 1 with
        | none => .stop .panic
        | some l => expand env .changeScrollRegion [0, toU32 l] scroll s >>?
            expand env .cursorHome [] home
    | none, _ => .err .notSupported s
    | some _, none => .err .notSupported s) >>?
  clearAttributes env >>? expandReq env .clearScreen []

/-- `src/unix/terminal.rs:732-739` `exit_screen`. -/
def exitScreen (env : WEnv) (s : WS) : Outcome WS :=
  match env.db .exitCaMode with
  | some f => expand env .exitCaMode [] f s >>? flush
  | none => .ok s

/-- The public methods of `TerminalWriteGuard` (`src/terminal.rs:870-1117`). `sessionEnd` is the
drop of the guard (`src/unix/terminal.rs:1049-1055`), which flushes and prints any error. -/
inductive WOp
  | setFg (c : Option Color) | setBg (c : Option Color)
  | addStyle (s : Style) | removeStyle (s : Style) | setStyle (s : Style)
  | setTheme (t : Theme) | clearAttributes
  | writeStyled (fg bg : Option Color) (style : Style) (text : Bytes)
  | writeStr (text : Bytes)
  | flush
  | clearScreen | clearToLineEnd | clearToScreenEnd
  | moveUp (n : Nat) | moveDown (n : Nat) | moveLeft (n : Nat) | moveRight (n : Nat)
  | moveToFirstColumn
  | moveCursor (pos : Cursor)
  | setCursorMode (m : CursorMode)
  | sessionEnd
deriving DecidableEq

/-- The effect of a call. In `src/unix/terminal.rs`: `set_theme` (852-854), `clear_screen` (897-899),
`clear_to_line_end` (901-903), `clear_to_screen_end` (905-907), `move_to_first_column` (949-951),
`write_char` (985-987, a `writeStr` of one character), `write_str` (989-991); the others are above. -/
def WOp.run (env : WEnv) : WOp → WS → Outcome WS
  | .setFg c => Mortal.setFg env c
  | .setBg c => Mortal.setBg env c
  | .addStyle st => Mortal.addStyle env st
  | .removeStyle st => Mortal.removeStyle env st
  | .setStyle st => Mortal.setStyle env st
  | .setTheme t => setAttrs env t.fg t.bg t.style
  | .clearAttributes => Mortal.clearAttributes env
  | .writeStyled fg bg st t => Mortal.writeStyled env fg bg st t
  | .writeStr t => writeBytes t
  | .flush => Mortal.flush
  | .clearScreen => expandReq env .clearScreen []
  | .clearToLineEnd => expandReq env .clrEol []
  | .clearToScreenEnd => expandReq env .clrEos []
  | .moveUp n => Mortal.moveUp env n
  | .moveDown n => Mortal.moveDown env n
  | .moveLeft n => Mortal.moveLeft env n
  | .moveRight n => Mortal.moveRight env n
  | .moveToFirstColumn => writeBytes [13]
  | .moveCursor p => Mortal.moveCursor env p
  | .setCursorMode m => Mortal.setCursorMode env m
  | .sessionEnd => fun s =>
    match Mortal.flush s with
    | .err _ s' => .ok s'
    | o => o

/-- A history of calls by a program that carries on after errors. (Methods: `src/unix/terminal.rs:664-1055`.) -/
def runW (env : WEnv) : List WOp → WS → Option WS
  | [], s => some s
  | op :: ops, s => ((op.run env s).state).bind (runW env ops)

end Mortal
