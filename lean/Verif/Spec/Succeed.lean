import Verif.Spec.Writer

/-! # Specification: terminals on which no call fails -/

namespace Mortal.Spec

/-- All capabilities are there and can be expanded. -/
def AllCaps (env : WEnv) : Prop := ∀ c, ∃ f, env.db c = some f ∧ ∀ ps, (f ps).2 = true

end Mortal.Spec
