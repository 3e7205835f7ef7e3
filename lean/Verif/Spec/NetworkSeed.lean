import Verif.Model.NetworkSeed

/-! What is promised of a seeded generator (C236), and the same nodes with the same ids. -/

namespace Verif.NetworkSeed

variable {K O L W G : Type} [DecidableEq K]

/-- What `choose_multiple_weighted` promises with any generator: asked for at most as many elements as there are, all with
positive weight, it returns that many different positions. -/
def GoodGen (gen : Gen G) : Prop :=
  ∀ g ws amount, (∀ w ∈ ws, 0 < w) → amount ≤ ws.length →
    (gen.draw g ws amount).1.Nodup ∧ (gen.draw g ws amount).1.length = amount ∧ ∀ c ∈ (gen.draw g ws amount).1, c < ws.length

end Verif.NetworkSeed
