import Verif.Model.Theme
import Verif.Spec.WinAttr
import Verif.Spec.Writer
import Verif.Spec.Buffer

/-! # Specification: what a theme should hold -/

namespace Mortal.Spec

/-- The ways to start a theme. -/
inductive ThemeStart
  | default
  | new (fg bg : Option Color) (style : Option Style)

/-- The code that starts it. -/
def ThemeStart.make : ThemeStart → Theme
  | .default => Theme.default
  | .new f b s => Theme.new f b s

/-- `f` is the last value of one kind among the requests: somebody asked for it and nobody after
that asked again, or nobody asked at all and it is the value at the start. -/
def LastAsked {α : Type} (asks : ThemeCall → α → Prop) (start : α) (calls : List ThemeCall)
    (v : α) : Prop :=
  (∃ a c b, calls = a ++ c :: b ∧ asks c v ∧ ∀ c' ∈ b, ∀ v', ¬ asks c' v') ∨
    ((∀ c' ∈ calls, ∀ v', ¬ asks c' v') ∧ v = start)

/-- A request for a foreground colour. -/
def AsksFg (c : ThemeCall) (v : Option Color) : Prop := c = .fg v

/-- A request for a background colour. -/
def AsksBg (c : ThemeCall) (v : Option Color) : Prop := c = .bg v

/-- A request for a style: no style asked for means none of bold, italic, reverse and underline. -/
def AsksStyle (c : ThemeCall) (v : Style) : Prop :=
  c = .style (some v) ∨ c = .style none ∧ ∀ i, v.getLsbD i = false

/-- What a start asks for. -/
def ThemeStart.Holds : ThemeStart → Theme → Prop
  | .default, t => t.fg = none ∧ t.bg = none ∧ ∀ i, t.style.getLsbD i = false
  | .new f b (some s), t => t.fg = f ∧ t.bg = b ∧ t.style = s
  | .new f b none, t => t.fg = f ∧ t.bg = b ∧ ∀ i, t.style.getLsbD i = false

/-- The same requests, made to a screen instead of a theme. -/
def ThemeCall.onScreen : ThemeCall → BufOp
  | .fg c => .setFg c
  | .bg c => .setBg c
  | .style s => .setStyle (s.getD 0#8)

/-- The same requests, made to a Unix terminal. -/
def ThemeCall.onUnix : ThemeCall → WOp
  | .fg c => .setFg c
  | .bg c => .setBg c
  | .style s => .setStyle (s.getD 0#8)

/-- The same requests, made to a Windows terminal. -/
def ThemeCall.onWin : ThemeCall → AttrOp
  | .fg c => .fg c
  | .bg c => .bg c
  | .style s => .style (s.getD 0#8)

end Mortal.Spec
