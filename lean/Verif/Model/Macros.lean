import Verif.Model.ScreenUnix
import Verif.Model.Win

/-!
# `src/macros.rs`: `term_write!` and `term_writeln!`

The macros are functions on token trees; a token tree list no rule matches is a compile error
(`none`). Argument expressions are represented by their values; `std::fmt` and `concat!` are
represented by the text they produce. The compiler's limit on macro recursion is not modelled.
-/

namespace Mortal

/-- The value of an argument expression: a colour or `None` (`Into<Option<Color>>`), a style or
`None` (`Into<Option<Style>>`, `None` being the empty style), or a theme. (`src/macros.rs:239-263`.) -/
inductive Arg
  | color (c : Option Color) | style (s : Style) | theme (t : Theme)
deriving DecidableEq

/-- The identifiers the rules mention, and any other. (`src/macros.rs:118-263`.) -/
inductive Word
  | black | blue | cyan | green | magenta | red | white | yellow
  | bold | italic | reverse | underline
  | reset | fg | bg | style | theme | other
deriving DecidableEq

/-- A token inside square brackets; an expression after `=`, `+=` or `-=` counts as one.
(`src/macros.rs:93-99`, 118-263.) -/
inductive Tok
  | word (w : Word) | hash | bang | eq | plusEq | minusEq | expr (v : Arg)
deriving DecidableEq

/-- The inside of parentheses: an expression after `:` or `?`, given by what its `Display` and
`Debug` produce, or a format string with its arguments, given by what they produce.
(`src/macros.rs:266-277`.) -/
inductive Fmt
  | colon (display debug : List Char) | quest (display debug : List Char) | args (text : List Char)
deriving DecidableEq

/-- An element: brackets, parentheses, or another token tree (a literal, given by what `concat!`
makes of it). (`src/macros.rs:93-115`.) -/
inductive Elem
  | bracket (ts : List Tok) | paren (f : Fmt) | lit (text : List Char)
deriving DecidableEq

/-- The calls the rules expand to: methods of the guard, and `write!`, i.e. `write_fmt`.
(`src/macros.rs:118-283`.) -/
inductive MCall
  | setFg (c : Option Color) | setBg (c : Option Color) | addStyle (s : Style)
  | removeStyle (s : Style) | setStyle (s : Style) | clearAttributes | setTheme (t : Theme)
  | writeFmt (text : List Char) | writeStr (text : List Char)
deriving DecidableEq

/-- The expression a macro call expands to, `src/macros.rs:81`: `init`, or
`Chain::chain(result, || call)`. -/
inductive MExpr
  | init
  | chain (result : MExpr) (call : MCall)
deriving DecidableEq

/-- `src/macros.rs:117-263`: the rules `@_INTERNAL style`. Arguments of another type do not
compile. -/
def styleRule (r : MExpr) : List Tok → Option MExpr
  | [.word .black] => some (.chain r (.setFg (some .black)))
  | [.word .blue] => some (.chain r (.setFg (some .blue)))
  | [.word .cyan] => some (.chain r (.setFg (some .cyan)))
  | [.word .green] => some (.chain r (.setFg (some .green)))
  | [.word .magenta] => some (.chain r (.setFg (some .magenta)))
  | [.word .red] => some (.chain r (.setFg (some .red)))
  | [.word .white] => some (.chain r (.setFg (some .white)))
  | [.word .yellow] => some (.chain r (.setFg (some .yellow)))
  | [.hash, .word .black] => some (.chain r (.setBg (some .black)))
  | [.hash, .word .blue] => some (.chain r (.setBg (some .blue)))
  | [.hash, .word .cyan] => some (.chain r (.setBg (some .cyan)))
  | [.hash, .word .green] => some (.chain r (.setBg (some .green)))
  | [.hash, .word .magenta] => some (.chain r (.setBg (some .magenta)))
  | [.hash, .word .red] => some (.chain r (.setBg (some .red)))
  | [.hash, .word .white] => some (.chain r (.setBg (some .white)))
  | [.hash, .word .yellow] => some (.chain r (.setBg (some .yellow)))
  | [.word .bold] => some (.chain r (.addStyle .BOLD))
  | [.word .italic] => some (.chain r (.addStyle .ITALIC))
  | [.word .reverse] => some (.chain r (.addStyle .REVERSE))
  | [.word .underline] => some (.chain r (.addStyle .UNDERLINE))
  | [.bang, .word .bold] => some (.chain r (.removeStyle .BOLD))
  | [.bang, .word .italic] => some (.chain r (.removeStyle .ITALIC))
  | [.bang, .word .reverse] => some (.chain r (.removeStyle .REVERSE))
  | [.bang, .word .underline] => some (.chain r (.removeStyle .UNDERLINE))
  | [.word .reset] => some (.chain r .clearAttributes)
  | [.bang, .word .fg] => some (.chain r (.setFg none))
  | [.bang, .word .bg] => some (.chain r (.setBg none))
  | [.bang, .word .style] => some (.chain r (.setStyle 0#8))
  | [.word .fg, .eq, .expr (.color c)] => some (.chain r (.setFg c))
  | [.word .bg, .eq, .expr (.color c)] => some (.chain r (.setBg c))
  | [.word .style, .eq, .expr (.style s)] => some (.chain r (.setStyle s))
  | [.word .style, .plusEq, .expr (.style s)] => some (.chain r (.addStyle s))
  | [.word .style, .minusEq, .expr (.style s)] => some (.chain r (.removeStyle s))
  | [.word .theme, .eq, .expr (.theme t)] => some (.chain r (.setTheme t))
  | _ => none

/-- `src/macros.rs:265-277`: the rules `@_INTERNAL format`. -/
def formatRule (r : MExpr) : Fmt → MExpr
  | .colon display _ => .chain r (.writeFmt display)
  | .quest _ debug => .chain r (.writeFmt debug)
  | .args text => .chain r (.writeFmt text)

/-- `src/macros.rs:279-283`: the rule `@_INTERNAL literal`. -/
def literalRule (r : MExpr) (text : List Char) : MExpr := .chain r (.writeStr text)

/-- `src/macros.rs:87-115`: the rules `@_INTERNAL main`. The code passes the macro call for the new
result on unexpanded; the expression it becomes is the same. -/
def mainRule : MExpr → List Elem → Option MExpr
  | r, [] => some r
  | r, .bracket ts :: rest =>
    match styleRule r ts with
    | some r' => mainRule r' rest
    | none => none
  | r, .paren f :: rest => mainRule (formatRule r f) rest
  | r, .lit t :: rest => mainRule (literalRule r t) rest

/-- `src/macros.rs:77-85`: the entry rule, which wants at least one element. -/
def termWrite : List Elem → Option MExpr
  | [] => none
  | es => mainRule .init es

/-- `src/macros.rs:294-301` `term_writeln!`, for both of its rules. -/
def termWriteln (es : List Elem) : Option MExpr := termWrite (es ++ [.lit ['\n']])

/-- A call on a `TerminalWriteGuard` (`src/terminal.rs:931-1101`); `write_fmt` (1094-1097) formats
into a string and calls `write_str`. -/
def MCall.onTerm (env : WEnv) : MCall → WS → Outcome WS
  | .setFg c => WOp.run env (.setFg c)
  | .setBg c => WOp.run env (.setBg c)
  | .addStyle s => WOp.run env (.addStyle s)
  | .removeStyle s => WOp.run env (.removeStyle s)
  | .setStyle s => WOp.run env (.setStyle s)
  | .clearAttributes => WOp.run env .clearAttributes
  | .setTheme t => WOp.run env (.setTheme t)
  | .writeFmt text => WOp.run env (.writeStr (encode text))
  | .writeStr text => WOp.run env (.writeStr (encode text))

/-- `src/macros.rs:323-329` `Chain for io::Result<()>`: the value of the expression, with the state
the calls leave. -/
def MExpr.evalTerm (env : WEnv) (s : WS) : MExpr → Outcome WS
  | .init => .ok s
  | .chain r c =>
    match r.evalTerm env s with
    | .ok s' => c.onTerm env s'
    | .err e s' => .err e s'
    | .stop w => .stop w

/-- A call on a `ScreenWriteGuard` (`src/screen.rs:398-583`); `write_fmt` (574-577) formats into a
string and calls `write_str`. -/
def MCall.onScreen (u : UEnv) : MCall → Buf → Panics Buf
  | .setFg c => fun b => BufOp.run u b (.setFg c)
  | .setBg c => fun b => BufOp.run u b (.setBg c)
  | .addStyle s => fun b => BufOp.run u b (.addStyle s)
  | .removeStyle s => fun b => BufOp.run u b (.removeStyle s)
  | .setStyle s => fun b => BufOp.run u b (.setStyle s)
  | .clearAttributes => fun b => BufOp.run u b .clearAttributes
  | .setTheme t => fun b => BufOp.run u b (.setTheme t)
  | .writeFmt text => fun b => BufOp.run u b (.writeStr text)
  | .writeStr text => fun b => BufOp.run u b (.writeStr text)

/-- `src/macros.rs:315-321` `Chain for ()`. -/
def MExpr.evalScreen (u : UEnv) (b : Buf) : MExpr → Panics Buf
  | .init => some b
  | .chain r c => (r.evalScreen u b).bind (c.onScreen u)

/-- `term_write!(terminal, …)`, `src/macros.rs:78-85` with `src/terminal.rs:844-846`: the guard
lives to the end of the `match`, then its drop flushes (`src/unix/terminal.rs:1049-1055`, which
reports an error on standard error only). The result is the value of the expression and the
state. -/
def MExpr.onTerminal (env : WEnv) (s : WS) (m : MExpr) : Option (Option IoErr × WS) :=
  match m.evalTerm env s with
  | .ok s' => ((WOp.run env .sessionEnd s').state).map fun t => (none, t)
  | .err e s' => ((WOp.run env .sessionEnd s').state).map fun t => (some e, t)
  | .stop _ => none

/-- `term_write!(screen, …)`, `src/macros.rs:78-85` with `src/screen.rs:358-360`: the guard is
dropped at the end of the `match`. -/
def MExpr.onScreenHandle (u : UEnv) (env : WEnv) (s : Scr) (m : MExpr) : Option Scr :=
  match m.evalScreen u s.buf with
  | none => none
  | some b => (guardDrop u env { s with buf := b }).state

/-! ## Windows -/

/-- A call on a `TerminalWriteGuard` (`src/terminal.rs:931-1101`) on Windows. -/
def MCall.onWin (t : WTerm) : MCall → WM Unit
  | .setFg c => winSetFg t c
  | .setBg c => winSetBg t c
  | .addStyle s => winAddStyle t s
  | .removeStyle s => winRemoveStyle t s
  | .setStyle s => winSetStyle t s
  | .clearAttributes => winClearAttributes t
  | .setTheme th => winSetAttributes t th
  | .writeFmt text => winWriteStr text
  | .writeStr text => winWriteStr text

/-- `term_write!(terminal, …)` on Windows, `src/macros.rs:78-85`, `323-329`; the guard there has no
`Drop`. -/
def MExpr.evalWin (t : WTerm) : MExpr → WM Unit
  | .init => pure ()
  | .chain r c => do
    r.evalWin t
    c.onWin t

end Mortal
