import Verif.Model.Macros
import Verif.Model.Api

/-!
# What the documentation of `term_write!` says (`src/macros.rs:5-45`)
-/

namespace Mortal.Spec

/-- The names of colours. -/
def colorName : Word → Option Color
  | .black => some .black | .blue => some .blue | .cyan => some .cyan | .green => some .green
  | .magenta => some .magenta | .red => some .red | .white => some .white | .yellow => some .yellow
  | _ => none

/-- The names of styles, as bits. -/
def styleName : Word → Option Style
  | .bold => some 1#8 | .italic => some 2#8 | .reverse => some 4#8 | .underline => some 8#8
  | _ => none

/-- A documented element and the method call it is equivalent to. -/
inductive Means : Elem → MCall → Prop
  | fg {w c} : colorName w = some c → Means (.bracket [.word w]) (.setFg (some c))
  | bg {w c} : colorName w = some c → Means (.bracket [.hash, .word w]) (.setBg (some c))
  | style {w s} : styleName w = some s → Means (.bracket [.word w]) (.addStyle s)
  | noStyle {w s} : styleName w = some s → Means (.bracket [.bang, .word w]) (.removeStyle s)
  | reset : Means (.bracket [.word .reset]) .clearAttributes
  | noFg : Means (.bracket [.bang, .word .fg]) (.setFg none)
  | noBg : Means (.bracket [.bang, .word .bg]) (.setBg none)
  | plain : Means (.bracket [.bang, .word .style]) (.setStyle 0#8)
  | fgE {c} : Means (.bracket [.word .fg, .eq, .expr (.color c)]) (.setFg c)
  | bgE {c} : Means (.bracket [.word .bg, .eq, .expr (.color c)]) (.setBg c)
  | styleE {s} : Means (.bracket [.word .style, .eq, .expr (.style s)]) (.setStyle s)
  | addE {s} : Means (.bracket [.word .style, .plusEq, .expr (.style s)]) (.addStyle s)
  | removeE {s} : Means (.bracket [.word .style, .minusEq, .expr (.style s)]) (.removeStyle s)
  | themeE {t} : Means (.bracket [.word .theme, .eq, .expr (.theme t)]) (.setTheme t)
  | display {d g} : Means (.paren (.colon d g)) (.writeFmt d)
  | debug {d g} : Means (.paren (.quest d g)) (.writeFmt g)
  | format {t} : Means (.paren (.args t)) (.writeFmt t)
  | literal {t} : Means (.lit t) (.writeStr t)

/-- The elements stand for these calls, one each, in this order. -/
inductive Stands : List Elem → List MCall → Prop
  | nil : Stands [] []
  | cons {e c es cs} : Means e c → Stands es cs → Stands (e :: es) (c :: cs)

/-- All of these calls succeed, one after the other. -/
inductive AllOk (env : WEnv) : List MCall → WS → WS → Prop
  | nil {s} : AllOk env [] s s
  | cons {c cs s s' t} : c.onTerm env s = .ok s' → AllOk env cs s' t → AllOk env (c :: cs) s t

/-- All of these calls are made on a screen's buffer, one after the other. -/
inductive AllDrawn (u : UEnv) : List MCall → Buf → Buf → Prop
  | nil {b} : AllDrawn u [] b b
  | cons {c cs b b' t} :
    c.onScreen u b = some b' → AllDrawn u cs b' t → AllDrawn u (c :: cs) b t

/-- The public method of `Terminal` and `TerminalWriteGuard` that a call is made with. -/
def methodOf : MCall → PubOp
  | .setFg c => .setFg c
  | .setBg c => .setBg c
  | .addStyle s => .addStyle s
  | .removeStyle s => .removeStyle s
  | .setStyle s => .setStyle (some s)
  | .clearAttributes => .clearAttributes
  | .setTheme t => .setTheme t
  | .writeFmt text => .writeFmt text
  | .writeStr text => .writeStr text

/-- The public method of `Screen` and `ScreenWriteGuard`. -/
def screenMethodOf : MCall → SPub
  | .setFg c => .setFg c
  | .setBg c => .setBg c
  | .addStyle s => .addStyle s
  | .removeStyle s => .removeStyle s
  | .setStyle s => .setStyle (some s)
  | .clearAttributes => .clearAttributes
  | .setTheme t => .setTheme t
  | .writeFmt text => .writeFmt text
  | .writeStr text => .writeStr text

end Mortal.Spec
