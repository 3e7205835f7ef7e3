import Verif.Model.Fl

/-! Order lemmas for `Fl`. -/

namespace Verif.Fl

theorem lt_irrefl (a : Fl) : a.lt a = false := by
  cases a <;> simp [lt]

theorem lt_trans {a b c : Fl} (h1 : a.lt b = true) (h2 : b.lt c = true) : a.lt c = true := by
  cases a <;> cases b <;> cases c <;> simp_all [lt]
  exact _root_.lt_trans h1 h2

theorem lt_asymm {a b : Fl} (h : a.lt b = true) : b.lt a = false := by
  by_contra hb
  have := lt_trans h (eq_true_of_ne_false hb)
  rw [lt_irrefl] at this
  cases this

theorem not_lt_of_lt {a b c : Fl} (h1 : b.lt c = true) (h2 : a.lt c = false) : a.lt b = false := by
  by_contra h
  rw [lt_trans (eq_true_of_ne_false h) h1] at h2
  cases h2

theorem not_lt_of_lt' {a b c : Fl} (h1 : c.lt b = true) (h2 : c.lt a = false) : b.lt a = false := by
  by_contra h
  rw [lt_trans h1 (eq_true_of_ne_false h)] at h2
  cases h2

end Verif.Fl
