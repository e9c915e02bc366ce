import Verif.Model.Types

/-! # Model: building themes (src/terminal.rs:56-108)

`Into<Option<_>>` arguments are the `Option` they are converted to. -/

namespace Mortal

/-- `Theme::default()` (derived, src/terminal.rs:59): no colours, and the default of the bit flags
(src/terminal.rs:38-54), which is empty. -/
def Theme.default : Theme := ⟨none, none, 0#8⟩

/-- `Theme::new` (src/terminal.rs:76-86). -/
def Theme.new (fg bg : Option Color) (style : Option Style) : Theme where
  fg := fg
  bg := bg
  style := style.getD 0#8

/-- `Theme::fg` (src/terminal.rs:89-93). -/
def Theme.withFg (t : Theme) (fg : Option Color) : Theme := { t with fg := fg }

/-- `Theme::bg` (src/terminal.rs:96-100). -/
def Theme.withBg (t : Theme) (bg : Option Color) : Theme := { t with bg := bg }

/-- `Theme::style` (src/terminal.rs:103-107). -/
def Theme.withStyle (t : Theme) (style : Option Style) : Theme := { t with style := style.getD 0#8 }

/-- The three builder methods (src/terminal.rs:89-107), as data. -/
inductive ThemeCall
  | fg (c : Option Color)
  | bg (c : Option Color)
  | style (s : Option Style)

/-- One builder call (src/terminal.rs:89-107). -/
def ThemeCall.run (t : Theme) : ThemeCall → Theme
  | .fg c => t.withFg c
  | .bg c => t.withBg c
  | .style s => t.withStyle s

/-- A chain of builder calls, `t.fg(..).bg(..)...` (src/terminal.rs:89-107). -/
def Theme.chain (t : Theme) (calls : List ThemeCall) : Theme := calls.foldl ThemeCall.run t

end Mortal
