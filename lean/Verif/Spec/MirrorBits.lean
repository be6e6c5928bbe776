import Verif.Model.Ordered
import Verif.Spec.Symmetry

/-!
# Specification: a run seen in a mirror, bit by bit
-/

namespace Heracles

variable {d n : ℕ} {F : Type}

open Arith

/-- What the operations do with signs. Every operation that rounds symmetrically has these properties. -/
structure SignLaws (F : Type) [Arith F] : Prop where
  neg_neg : ∀ a : F, - -a = a
  neg_zero : -(0 : F) = 0
  add_comm : ∀ a b : F, a + b = b + a
  add_zero : ∀ a : F, a + 0 = a
  neg_add : ∀ a b : F, -a + -b = -(a + b)
  sub_eq : ∀ a b : F, a - b = a + -b
  mul_comm : ∀ a b : F, a * b = b * a
  neg_mul : ∀ a b : F, -a * b = -(a * b)
  mul_zero : ∀ a : F, a * 0 = 0
  neg_div : ∀ a b : F, -a / b = -(a / b)
  fmin_comm : ∀ a b : F, fmin a b = fmin b a
  fmax_comm : ∀ a b : F, fmax a b = fmax b a
  fmin_neg : ∀ a b : F, fmin (-a) (-b) = -fmax a b
  fabs_neg : ∀ a : F, fabs (-a) = fabs a
  neg_lt : ∀ a b : F, -a < -b ↔ b < a
  asymm : ∀ a b : F, a < b → ¬ b < a
  tri : ∀ a b : F, ¬ a < b → ¬ b < a → a = b

/-- The choices of a run seen in a mirror that reverses direction `b`: everything is the same, except that the conditions on the two
faces normal to `b` are exchanged. -/
structure KernelParams.Mirrored (b : Fin d) (p p' : KernelParams d n F) : Prop where
  k : p'.k = p.k
  geom : p'.geom = p.geom
  lo : p'.lo = p.lo
  policy : p'.policy = p.policy
  bcs : ∀ a f, p'.bcs a f = p.bcs a (if a = b then f.rev else f)

end Heracles
