import Verif.Model.Writer
import Verif.Model.Win
import Verif.Model.ScreenUnix

/-!
# `src/terminal.rs`, `src/screen.rs`: the public methods that write

`Terminal` and `Screen` offer the same methods as their write guards. A method of `Terminal` takes the
write lock, makes one call and releases the lock (`src/terminal.rs:653-660`). Conversions
(`Into<Option<_>>`, `Into<Cursor>`) and formatting (`fmt::Arguments::to_string`) have been done: the
arguments below are their results. The lock is not poisoned (a poisoned one makes `lock_writer` panic,
see the lock model).
-/

namespace Mortal

/-- The public methods to write, of `Terminal` (`src/terminal.rs:666-841`) and of `TerminalWriteGuard`
(`src/terminal.rs:928-1097`, which has `flush`, too). -/
inductive PubOp
  | clearScreen | clearToLineEnd | clearToScreenEnd
  | moveUp (n : Nat) | moveDown (n : Nat) | moveLeft (n : Nat) | moveRight (n : Nat)
  | moveToFirstColumn
  | setCursorMode (m : CursorMode)
  | addStyle (s : Style) | removeStyle (s : Style) | setStyle (s : Option Style)
  | setTheme (t : Theme) | setFg (c : Option Color) | setBg (c : Option Color)
  | clearAttributes | bold | italic | underline | reverse
  | writeStyled (fg bg : Option Color) (style : Option Style) (s : List Char)
  | writeChar (ch : Char) | writeStr (s : List Char) | writeFmt (s : List Char)
deriving DecidableEq

/-- `Option<Style>::unwrap_or_default`. (For `src/terminal.rs:84`, 104.) -/
def orDefault : Option Style → Style
  | some s => s
  | none => Style.empty

/-! ## Unix -/

/-- The method of `sys::TerminalWriteGuard` that a method of `TerminalWriteGuard` calls
(`src/terminal.rs:928-1097`). `write_char` (`src/unix/terminal.rs:985-987`) writes the bytes of the
character. -/
def PubOp.guardUnix : PubOp → WOp
  | .clearScreen => .clearScreen
  | .clearToLineEnd => .clearToLineEnd
  | .clearToScreenEnd => .clearToScreenEnd
  | .moveUp n => .moveUp n
  | .moveDown n => .moveDown n
  | .moveLeft n => .moveLeft n
  | .moveRight n => .moveRight n
  | .moveToFirstColumn => .moveToFirstColumn
  | .setCursorMode m => .setCursorMode m
  | .addStyle s => .addStyle s
  | .removeStyle s => .removeStyle s
  | .setStyle s => .setStyle (orDefault s)
  | .setTheme t => .setTheme t
  | .setFg c => .setFg c
  | .setBg c => .setBg c
  | .clearAttributes => .clearAttributes
  | .bold => .addStyle .BOLD
  | .italic => .addStyle .ITALIC
  | .underline => .addStyle .UNDERLINE
  | .reverse => .addStyle .REVERSE
  | .writeStyled fg bg st s => .writeStyled fg bg (orDefault st) (encode s)
  | .writeChar ch => .writeStr (encode [ch])
  | .writeStr s => .writeStr (encode s)
  | .writeFmt s => .writeStr (encode s)

/-- `self.lock_writer().op()`: a guard for one call. It is dropped at the end of the statement, also if
the call fails (`src/unix/terminal.rs:292-294`, 1049-1055). -/
def oneCall (env : WEnv) (op : WOp) (s : WS) : Option (Option IoErr × WS) :=
  match op.run env s with
  | .ok s' => ((WOp.run env .sessionEnd s').state).map fun t => (none, t)
  | .err e s' => ((WOp.run env .sessionEnd s').state).map fun t => (some e, t)
  | .stop _ => none

/-- The method of `Terminal`: `src/terminal.rs:666-841` and below it `src/unix/terminal.rs:181-269`,
where a move by nothing does not take the lock (193-219). -/
def PubOp.callUnix (env : WEnv) (s : WS) : PubOp → Option (Option IoErr × WS)
  | .clearScreen => oneCall env .clearScreen s
  | .clearToLineEnd => oneCall env .clearToLineEnd s
  | .clearToScreenEnd => oneCall env .clearToScreenEnd s
  | .moveUp n => if n ≠ 0 then oneCall env (.moveUp n) s else some (none, s)
  | .moveDown n => if n ≠ 0 then oneCall env (.moveDown n) s else some (none, s)
  | .moveLeft n => if n ≠ 0 then oneCall env (.moveLeft n) s else some (none, s)
  | .moveRight n => if n ≠ 0 then oneCall env (.moveRight n) s else some (none, s)
  | .moveToFirstColumn => oneCall env .moveToFirstColumn s
  | .setCursorMode m => oneCall env (.setCursorMode m) s
  | .addStyle st => oneCall env (.addStyle st) s
  | .removeStyle st => oneCall env (.removeStyle st) s
  | .setStyle st => oneCall env (.setStyle (orDefault st)) s
  | .setTheme t => oneCall env (.setTheme t) s
  | .setFg c => oneCall env (.setFg c) s
  | .setBg c => oneCall env (.setBg c) s
  | .clearAttributes => oneCall env .clearAttributes s
  | .bold => oneCall env (.addStyle .BOLD) s
  | .italic => oneCall env (.addStyle .ITALIC) s
  | .underline => oneCall env (.addStyle .UNDERLINE) s
  | .reverse => oneCall env (.addStyle .REVERSE) s
  | .writeStyled fg bg st x => oneCall env (.writeStyled fg bg (orDefault st) (encode x)) s
  | .writeChar ch => oneCall env (.writeStr (encode [ch])) s
  | .writeStr x => oneCall env (.writeStr (encode x)) s
  | .writeFmt x => oneCall env (.writeStr (encode x)) s

/-- What a program does: a method of `Terminal`, or a write guard with calls on it (`none` is `flush`,
`src/terminal.rs:932-934`) that is then dropped. -/
inductive PAct
  | call (op : PubOp)
  | guard (ops : List (Option PubOp))
deriving DecidableEq

/-- The calls on a guard, the results of those that are not `flush`.
(Guards: `src/unix/terminal.rs:276-279`, 1049-1055.) -/
def guardCallsUnix (env : WEnv) : List (Option PubOp) → WS → Option (List (PubOp × Bool) × WS)
  | [], s => some ([], s)
  | none :: ops, s =>
    match WOp.run env .flush s with
    | .ok s' => guardCallsUnix env ops s'
    | .err _ s' => guardCallsUnix env ops s'
    | .stop _ => none
  | some op :: ops, s =>
    match op.guardUnix.run env s with
    | .ok s' => (guardCallsUnix env ops s').map fun (l, t) => ((op, true) :: l, t)
    | .err _ s' => (guardCallsUnix env ops s').map fun (l, t) => ((op, false) :: l, t)
    | .stop _ => none

/-- A program on a Unix terminal that carries on after errors. (Methods: `src/unix/terminal.rs:101-298`.) -/
def runPubUnix (env : WEnv) : List PAct → WS → Option (List (PubOp × Bool) × WS)
  | [], s => some ([], s)
  | .call op :: acts, s =>
    match op.callUnix env s with
    | some (r, s') => (runPubUnix env acts s').map fun (l, t) => ((op, r.isNone) :: l, t)
    | none => none
  | .guard ops :: acts, s =>
    match guardCallsUnix env ops s with
    | some (l, s') =>
      match (WOp.run env .sessionEnd s').state with
      | some s'' => (runPubUnix env acts s'').map fun (l', t) => (l ++ l', t)
      | none => none
    | none => none

/-! ## Windows -/

/-- The method of `sys::TerminalWriteGuard` that a method of `TerminalWriteGuard` calls
(`src/terminal.rs:928-1097`); `write_char`: `src/windows/terminal.rs:843-846`. -/
def PubOp.guardWin (t : WTerm) : PubOp → WM Unit
  | .clearScreen => winClearScreen t
  | .clearToLineEnd => winClearToLineEnd t
  | .clearToScreenEnd => winClearToScreenEnd t
  | .moveUp n => winMoveUp n
  | .moveDown n => winMoveDown n
  | .moveLeft n => winMoveLeft n
  | .moveRight n => winMoveRight n
  | .moveToFirstColumn => winFirstColumn
  | .setCursorMode m => winCursorMode m
  | .addStyle s => winAddStyle t s
  | .removeStyle s => winRemoveStyle t s
  | .setStyle s => winSetStyle t (orDefault s)
  | .setTheme th => winSetAttributes t th
  | .setFg c => winSetFg t c
  | .setBg c => winSetBg t c
  | .clearAttributes => winClearAttributes t
  | .bold => winAddStyle t .BOLD
  | .italic => winAddStyle t .ITALIC
  | .underline => winAddStyle t .UNDERLINE
  | .reverse => winAddStyle t .REVERSE
  | .writeStyled fg bg st s => winWriteStyled t ⟨fg, bg, orDefault st⟩ s
  | .writeChar ch => winWriteChar ch
  | .writeStr s => winWriteStr s
  | .writeFmt s => winWriteStr s

/-- The method of `Terminal`: `src/terminal.rs:666-841` and below it `src/windows/terminal.rs:161-294`,
where a move by nothing does not take the lock (177-203). The guard has no `Drop`. -/
def PubOp.callWin (t : WTerm) : PubOp → WM Unit
  | .clearScreen => winClearScreen t
  | .clearToLineEnd => winClearToLineEnd t
  | .clearToScreenEnd => winClearToScreenEnd t
  | .moveUp n => if n ≠ 0 then winMoveUp n else pure ()
  | .moveDown n => if n ≠ 0 then winMoveDown n else pure ()
  | .moveLeft n => if n ≠ 0 then winMoveLeft n else pure ()
  | .moveRight n => if n ≠ 0 then winMoveRight n else pure ()
  | .moveToFirstColumn => winFirstColumn
  | .setCursorMode m => winCursorMode m
  | .addStyle s => winAddStyle t s
  | .removeStyle s => winRemoveStyle t s
  | .setStyle s => winSetStyle t (orDefault s)
  | .setTheme th => winSetAttributes t th
  | .setFg c => winSetFg t c
  | .setBg c => winSetBg t c
  | .clearAttributes => winClearAttributes t
  | .bold => winAddStyle t .BOLD
  | .italic => winAddStyle t .ITALIC
  | .underline => winAddStyle t .UNDERLINE
  | .reverse => winAddStyle t .REVERSE
  | .writeStyled fg bg st s => winWriteStyled t ⟨fg, bg, orDefault st⟩ s
  | .writeChar ch => winWriteStr [ch]
  | .writeStr s => winWriteStr s
  | .writeFmt s => winWriteStr s

/-- Calls one after another, carrying on after errors; `none` is `flush`
(`src/windows/terminal.rs:618-620`), which is not recorded. -/
def callsWin (f : PubOp → WM Unit) : List (Option PubOp) → WinSt → Option (List (PubOp × Bool) × WinSt)
  | [], s => some ([], s)
  | none :: ops, s =>
    match winFlush s with
    | .ok _ s' => callsWin f ops s'
    | .err _ s' => callsWin f ops s'
    | .stop _ => none
  | some op :: ops, s =>
    match f op s with
    | .ok _ s' => (callsWin f ops s').map fun (l, t) => ((op, true) :: l, t)
    | .err _ s' => (callsWin f ops s').map fun (l, t) => ((op, false) :: l, t)
    | .stop _ => none

/-- A program on a Windows console. (Methods: `src/windows/terminal.rs:123-321`.) -/
def runPubWin (t : WTerm) : List PAct → WinSt → Option (List (PubOp × Bool) × WinSt)
  | [], s => some ([], s)
  | .call op :: acts, s =>
    match callsWin (PubOp.callWin t) [some op] s with
    | some (l, s') => (runPubWin t acts s').map fun (l', s'') => (l ++ l', s'')
    | none => none
  | .guard ops :: acts, s =>
    match callsWin (PubOp.guardWin t) ops s with
    | some (l, s') => (runPubWin t acts s').map fun (l', s'') => (l ++ l', s'')
    | none => none

/-! ## Screens -/

/-- The public methods to draw, of `Screen` (`src/screen.rs:160-355`) and of `ScreenWriteGuard`
(`src/screen.rs:391-577`). -/
inductive SPub
  | setCursor (pos : Cursor) | nextLine (column : Nat) | clearScreen
  | addStyle (s : Style) | removeStyle (s : Style) | setStyle (s : Option Style)
  | setFg (c : Option Color) | setBg (c : Option Color) | setTheme (t : Theme)
  | clearAttributes | bold | italic | underline | reverse
  | writeAt (pos : Cursor) (s : List Char)
  | writeStyled (fg bg : Option Color) (style : Option Style) (s : List Char)
  | writeStyledAt (pos : Cursor) (fg bg : Option Color) (style : Option Style) (s : List Char)
  | writeChar (ch : Char) | writeStr (s : List Char) | writeFmt (s : List Char)
deriving DecidableEq

/-- The call a method of `Screen` makes on the buffer (`src/screen.rs:160-355` with
`src/buffer.rs:281-371`). -/
def SPub.onScreen : SPub → BufOp
  | .setCursor p => .setCursor p
  | .nextLine c => .nextLine c
  | .clearScreen => .clearScreen
  | .addStyle s => .addStyle s
  | .removeStyle s => .removeStyle s
  | .setStyle s => .setStyle (orDefault s)
  | .setFg c => .setFg c
  | .setBg c => .setBg c
  | .setTheme t => .setTheme t
  | .clearAttributes => .clearAttributes
  | .bold => .addStyle .BOLD
  | .italic => .addStyle .ITALIC
  | .underline => .addStyle .UNDERLINE
  | .reverse => .addStyle .REVERSE
  | .writeAt p s => .writeAt p s
  | .writeStyled fg bg st s => .writeStyled fg bg (orDefault st) s
  | .writeStyledAt p fg bg st s => .writeStyledAt p fg bg (orDefault st) s
  | .writeChar ch => .writeChar ch
  | .writeStr s => .writeStr s
  | .writeFmt s => .writeStr s

/-- The call a method of `ScreenWriteGuard` makes on the buffer (`src/screen.rs:391-577` with
`src/buffer.rs:374-466`). -/
def SPub.onGuard : SPub → BufOp
  | .setCursor p => .setCursor p
  | .nextLine c => .nextLine c
  | .clearScreen => .clearScreen
  | .addStyle s => .addStyle s
  | .removeStyle s => .removeStyle s
  | .setStyle s => .setStyle (orDefault s)
  | .setFg c => .setFg c
  | .setBg c => .setBg c
  | .setTheme t => .setTheme t
  | .clearAttributes => .clearAttributes
  | .bold => .addStyle .BOLD
  | .italic => .addStyle .ITALIC
  | .underline => .addStyle .UNDERLINE
  | .reverse => .addStyle .REVERSE
  | .writeAt p s => .writeAt p s
  | .writeStyled fg bg st s => .writeStyled fg bg (orDefault st) s
  | .writeStyledAt p fg bg st s => .writeStyledAt p fg bg (orDefault st) s
  | .writeChar ch => .writeChar ch
  | .writeStr s => .writeStr s
  | .writeFmt s => .writeStr s

end Mortal
