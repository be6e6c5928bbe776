import Verif.Lemmas.Relative
import Verif.Model.DoubleArith

/-!
# Conversion to primitive variables and back, in double precision
-/

namespace Heracles

open Arith

variable {d : ℕ} {rnd : ℚ → ℚ} (hr : Nearest rnd)
include hr

/-- A sum added up term by term. -/
theorem near_foldl {ι : Type} (l : List ι) (f g : ι → ℚ) {m : ℕ} {S acc : ℚ} (hacc : Near m S acc) (hf : ∀ i, Near m (g i) (f i)) :
    Near (m + l.length) (S + (l.map g).sum) (l.foldl (fun s i => rnd (s + f i)) acc) := by
  induction l generalizing m S acc with
  | nil => simpa using hacc
  | cons i l ih =>
    have h := ih ((hacc.add (hf i)).rnd_pos hr) fun j => (hf j).mono (Nat.le_succ m)
    rw [List.foldl_cons, List.map_cons, List.sum_cons, List.length_cons, ← add_assoc S]
    exact h.mono (show m + 1 + l.length ≤ m + (l.length + 1) by omega)

/-- `sumUp` of doubles. -/
theorem sumUp_val (tr : Trig FinDbl) (f : Fin d → FinDbl) :
    (@sumUp d FinDbl (dblArith rnd hr tr) f).1 = (List.finRange d).foldl (fun s i => rnd (s + (f i).1)) 0 := by
  unfold sumUp
  generalize List.finRange d = l
  have : ∀ (acc : FinDbl), (l.foldl (fun s i => (dblArith rnd hr tr).toAdd.add s (f i)) acc).1 =
      l.foldl (fun s i => rnd (s + (f i).1)) acc.1 := by
    induction l with
    | nil => intro acc; rfl
    | cons i l ih => intro acc; rw [List.foldl_cons, ih]; rfl
  exact this _

theorem near_sumUp (tr : Trig FinDbl) {f : Fin d → FinDbl} {g : Fin d → ℚ} {m : ℕ} (hf : ∀ i, Near m (g i) (f i).1) :
    Near (m + d) ((List.finRange d).map g).sum (@sumUp d FinDbl (dblArith rnd hr tr) f).1 := by
  rw [sumUp_val hr]
  have h := near_foldl hr (List.finRange d) (fun i => (f i).1) g ((Near.refl le_rfl).mono (Nat.zero_le m)) hf
  rwa [zero_add, List.length_finRange] at h

theorem rnd_two : rnd ((2 : ℕ) : ℚ) = 2 := by
  rw [hr.eq_self (by exact_mod_cast isDouble_int (m := 2) (by norm_num))]; norm_num

/-- The kinetic energy that `E` is reduced by. -/
theorem near_ekCons (tr : Trig FinDbl) (c : Cons d FinDbl) (hrho : 0 < c.rho.1) :
    Near (d + 3) (((List.finRange d).map fun i => |(c.rhou i).1| * |(c.rhou i).1|).sum / c.rho.1 / 2)
      (@oEkCons d FinDbl (dblArith rnd hr tr) c).1 := by
  letI := dblArith rnd hr tr
  have h1 : ∀ i, Near 1 (|(c.rhou i).1| * |(c.rhou i).1|) (c.rhou i * c.rhou i).1 := fun i => by
    show Near 1 _ (rnd ((c.rhou i).1 * (c.rhou i).1))
    rw [← abs_mul_abs_self (c.rhou i).1]
    exact (Near.refl (mul_nonneg (abs_nonneg _) (abs_nonneg _))).rnd_pos hr
  have h2 := near_sumUp hr tr h1
  have h3 := (h2.div (Near.refl hrho.le) hrho).rnd_pos hr
  have h4 := (h3.div (Near.refl (by norm_num : (0 : ℚ) ≤ 2)) (by norm_num)).rnd_pos hr
  have e : (oEkCons c).1 = rnd (rnd ((sumUp fun i => c.rhou i * c.rhou i).1 / c.rho.1) / 2) := by
    show rnd (rnd (_ / _) / rnd ((2 : ℕ) : ℚ)) = _
    rw [rnd_two hr]
  rw [e]
  exact h4.mono (by omega)

/-- The kinetic energy that is added on a restart. -/
theorem near_ekPrim (tr : Trig FinDbl) (c : Cons d FinDbl) (hrho : 0 < c.rho.1) (P : FinDbl) :
    letI := dblArith rnd hr tr
    Near (d + 5) (((List.finRange d).map fun i => |(c.rhou i).1| * |(c.rhou i).1|).sum / c.rho.1 / 2)
      (oEkPrim { rho := c.rho, u := fun i => c.rhou i / c.rho, P := P }).1 := by
  letI := dblArith rnd hr tr
  have h1 : ∀ i, Near 3 (|(c.rhou i).1| * |(c.rhou i).1| * (c.rho.1⁻¹ * c.rho.1⁻¹)) (c.rhou i / c.rho * (c.rhou i / c.rho)).1 := fun i => by
    have hu : Near 1 (|(c.rhou i).1| / c.rho.1) |(c.rhou i / c.rho).1| := by
      have := Near.rnd hr ((c.rhou i).1 / c.rho.1)
      rwa [abs_div, abs_of_pos hrho] at this
    have h := (hu.mul hu).rnd_pos hr
    rw [abs_mul_abs_self, div_mul_div_comm] at h
    rw [← mul_inv, ← div_eq_mul_inv]
    exact h
  have h2 := near_sumUp hr tr h1
  rw [List.sum_map_mul_right] at h2
  have h3 := ((Near.refl hrho.le).mul h2).rnd_pos hr
  have h4 := (h3.div (Near.refl (by norm_num : (0 : ℚ) ≤ 2)) (by norm_num)).rnd_pos hr
  have e : (oEkPrim { rho := c.rho, u := fun i => c.rhou i / c.rho, P := P }).1 =
      rnd (rnd (c.rho.1 * (sumUp fun i => c.rhou i / c.rho * (c.rhou i / c.rho)).1) / 2) := by
    show rnd (rnd (_ * _) / rnd ((2 : ℕ) : ℚ)) = _
    rw [rnd_two hr]
  rw [e]
  have e2 : c.rho.1 * (((List.finRange d).map fun i => |(c.rhou i).1| * |(c.rhou i).1|).sum * (c.rho.1⁻¹ * c.rho.1⁻¹)) / 2 =
      ((List.finRange d).map fun i => |(c.rhou i).1| * |(c.rhou i).1|).sum / c.rho.1 / 2 := by
    field_simp
  rw [e2] at h4
  exact h4.mono (by omega)

/-- The perfect gas: energy to pressure and back. -/
theorem near_perfectGas (tr : Trig FinDbl) (sqrt : FinDbl → FinDbl) {kb mp gamma gm1 mmw rho e : FinDbl} (hkb : 0 < kb.1) (hmp : 0 < mp.1)
    (hg : 0 < gm1.1) (hm : 0 < mmw.1) (hrho : 0 < rho.1) (he : 0 ≤ e.1) :
    letI := dblArith rnd hr tr
    Near 18 e.1 ((oPerfectGas sqrt kb mp gamma gm1 mmw).evolFromPres rho
      ((oPerfectGas sqrt kb mp gamma gm1 mmw).presFromEvol rho e)).1 := by
  letI := dblArith rnd hr tr
  have z : ∀ {x : ℚ}, 0 < x → Near 0 x x := fun h => Near.refl h.le
  have rk := ((z hrho).mul (z hkb)).rnd_pos hr
  have mm := ((z hm).mul (z hmp)).rnd_pos hr
  have mmg := (mm.mul (z hg)).rnd_pos hr
  have hrk := mul_pos hrho hkb
  have hmm := mul_pos hm hmp
  have T1 := ((((((Near.refl he).mul (z hm)).rnd_pos hr).mul (z hmp)).rnd_pos hr).mul (z hg)).rnd_pos hr
  have T2 := (T1.div rk hrk).rnd_pos hr
  have P1 := ((rk.mul T2).rnd_pos hr)
  have P2 := (P1.div mm hmm).rnd_pos hr
  have S1 := (((P2.mul (z hm)).rnd_pos hr).mul (z hmp)).rnd_pos hr
  have S2 := (S1.div rk hrk).rnd_pos hr
  have E1 := (rk.mul S2).rnd_pos hr
  have E2 := (E1.div mmg (mul_pos hmm hg)).rnd_pos hr
  have ex : rho.1 * kb.1 * (rho.1 * kb.1 * (e.1 * mmw.1 * mp.1 * gm1.1 / (rho.1 * kb.1)) / (mmw.1 * mp.1) * mmw.1 * mp.1 / (rho.1 * kb.1)) /
      (mmw.1 * mp.1 * gm1.1) = e.1 := by
    field_simp
  rw [ex] at E2
  exact E2.mono (by norm_num)

/-- The energy after a restart. -/
theorem near_energy (tr : Trig FinDbl) (eos : EoS FinDbl) (c : Cons d FinDbl) (hrho : 0 < c.rho.1) (hd : d ≤ 3)
    (he : 0 ≤ (@oEvol d FinDbl (dblArith rnd hr tr) c).1)
    (hE : letI := dblArith rnd hr tr
      Near 18 (oEvol c).1 (eos.evolFromPres c.rho (eos.presFromEvol c.rho (oEvol c))).1) :
    letI := dblArith rnd hr tr
    Near 20 c.E.1 (oToCons eos (oToPrim eos c)).E.1 := by
  letI := dblArith rnd hr tr
  have k1 := near_ekCons hr tr c hrho
  have k2 := near_ekPrim hr tr c hrho (eos.presFromEvol c.rho (oEvol c))
  have k := k1.symm.trans k2
  have he' : 0 ≤ c.E.1 - (oEkCons c).1 := by
    by_contra hneg
    push Not at hneg
    have h1 : (oEvol c).1 = rnd (c.E.1 - (oEkCons c).1) := rfl
    have h2 := hr.pos (x := -(c.E.1 - (oEkCons c).1)) (by linarith)
    have h3 := hr.rel (c.E.1 - (oEkCons c).1)
    rw [abs_of_neg hneg] at h3
    rw [h1] at he
    have h4 := neg_abs_le (c.E.1 - (oEkCons c).1 - rnd (c.E.1 - (oEkCons c).1))
    have h5 : -(c.E.1 - (oEkCons c).1) / 2 ^ 53 < -(c.E.1 - (oEkCons c).1) := div_lt_self (by linarith) (by norm_num)
    linarith
  have s1 : Near 1 (c.E.1 - (oEkCons c).1) (oEvol c).1 := (Near.refl he').rnd_pos hr
  have s2 := s1.trans hE
  have s3 := s2.add (k.mono (show d + 3 + (d + 5) ≤ 1 + 18 by omega))
  rw [sub_add_cancel] at s3
  exact s3.rnd_pos hr

end Heracles
