import Verif.Spec.Scheme
import Verif.Spec.Euler
import Verif.Spec.Boundary

/-!
# Specification: data seen with permuted or reversed axes
-/

namespace Heracles

variable {d n : ℕ} {K : Type}

/-- What was along direction `a` is now along direction `σ a`. -/
def Cons.perm (σ : Equiv.Perm (Fin d)) (c : Cons d K) : Cons d K := { c with rhou := fun i => c.rhou (σ.symm i) }
@[inherit_doc Cons.perm] def Flux.perm (σ : Equiv.Perm (Fin d)) (f : Flux d K) : Flux d K := { f with rhou := fun i => f.rhou (σ.symm i) }
@[inherit_doc Cons.perm] def Prim.perm (σ : Equiv.Perm (Fin d)) (p : Prim d K) : Prim d K := { p with u := fun i => p.u (σ.symm i) }
@[inherit_doc Cons.perm] def VelPres.perm (σ : Equiv.Perm (Fin d)) (q : VelPres d K) : VelPres d K := { q with u := fun i => q.u (σ.symm i) }
@[inherit_doc Cons.perm] def Fields.perm (σ : Equiv.Perm (Fin d)) (f : Fields d n K) : Fields d n K :=
  { f with rhou := fun i => f.rhou (σ.symm i) }

/-- The direction `b` reversed. -/
def Prim.flip [Neg K] (b : Fin d) (p : Prim d K) : Prim d K := { p with u := fun i => if i = b then -p.u i else p.u i }
@[inherit_doc Prim.flip] def VelPres.flip [Neg K] (b : Fin d) (q : VelPres d K) : VelPres d K :=
  { q with u := fun i => if i = b then -q.u i else q.u i }
/-- The flux through a face that is not normal to the reversed direction `b`. -/
def Flux.flip [Neg K] (b : Fin d) (f : Flux d K) : Flux d K := { f with rhou := fun i => if i = b then -f.rhou i else f.rhou i }

/-- The image of a cell of an array with `m` cells along `x` when that axis is reversed. -/
def reflect (x : Fin 3) (m : ℤ) (c : Cell) : Cell := Function.update c x (m - 1 - c x)

end Heracles
