import Verif.Model.Api
import Verif.Spec.Direct
import Verif.Spec.TextRef

/-!
# What the public methods ask for

The documentation of the methods (`src/terminal.rs:661-841`, `src/screen.rs:146-355`), as calls that a
page or a picture is defined for.
-/

namespace Mortal.Spec

/-- What a method asks for. `bold`, `italic`, `underline` and `reverse` add a style; no style is the
default one; a character is a text of one character; formatted text is text. -/
def PubOp.asks : PubOp → TOp
  | .clearScreen => .clearScreen
  | .clearToLineEnd => .clearToLineEnd
  | .clearToScreenEnd => .clearToScreenEnd
  | .moveUp n => .move .up n
  | .moveDown n => .move .down n
  | .moveLeft n => .move .left n
  | .moveRight n => .move .right n
  | .moveToFirstColumn => .firstColumn
  | .setCursorMode m => .cursorMode m
  | .addStyle s => .addStyle s
  | .removeStyle s => .removeStyle s
  | .setStyle s => .style (s.getD 0#8)
  | .setTheme t => .theme t
  | .setFg c => .fg c
  | .setBg c => .bg c
  | .clearAttributes => .clearAttributes
  | .bold => .addStyle 1#8
  | .italic => .addStyle 2#8
  | .reverse => .addStyle 4#8
  | .underline => .addStyle 8#8
  | .writeStyled fg bg st s => .styled ⟨fg, bg, st.getD 0#8⟩ s
  | .writeChar ch => .write [ch]
  | .writeStr s | .writeFmt s => .write s

/-- The page after a program made these calls, some of which failed. -/
def Page.runPub (u : UEnv) (crlf : Bool) (tr : List (PubOp × Bool)) (p : Page) : Option Page :=
  p.run u crlf (tr.map fun x => (PubOp.asks x.1, x.2))

/-- What a method of a screen asks for. -/
def SPub.asks : SPub → BufOp
  | .setCursor p => .setCursor p
  | .nextLine c => .nextLine c
  | .clearScreen => .clearScreen
  | .addStyle s => .addStyle s
  | .removeStyle s => .removeStyle s
  | .setStyle s => .setStyle (s.getD 0#8)
  | .setFg c => .setFg c
  | .setBg c => .setBg c
  | .setTheme t => .setTheme t
  | .clearAttributes => .clearAttributes
  | .bold => .addStyle 1#8
  | .italic => .addStyle 2#8
  | .reverse => .addStyle 4#8
  | .underline => .addStyle 8#8
  | .writeAt p s => .writeAt p s
  | .writeStyled fg bg st s => .writeStyled fg bg (st.getD 0#8) s
  | .writeStyledAt p fg bg st s => .writeStyledAt p fg bg (st.getD 0#8) s
  | .writeChar ch => .writeStr [ch]
  | .writeStr s | .writeFmt s => .writeStr s

/-- The operating system takes all it is given, after interruptions perhaps. -/
def TakesAll (os : List WriteRes) : Prop := ∀ r ∈ os, r = .all ∨ r = .eintr

end Mortal.Spec
