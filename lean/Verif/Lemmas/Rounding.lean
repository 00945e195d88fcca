import Verif.Spec.Rounding
import Verif.Model.Rounding
import Verif.Lemmas.Hist
import Mathlib.Tactic.Linarith
import Mathlib.Tactic.Ring
import Mathlib.Tactic.FieldSimp
import Mathlib.Algebra.Order.Ring.Pow

/-!
# Lemmas about rounding
-/

set_option linter.unusedSectionVars false
set_option autoImplicit false

namespace Verif.Lemmas.Rounding

open Verif Verif.Np Verif.Model Verif.Spec

variable {K : Type} [Field K] [LinearOrder K] [IsStrictOrderedRing K] {fl : K → K} {u : K}

section Rel

theorem one_sub_pos (h : Rounding fl u) : 0 < 1 - u := sub_pos.2 h.lt_one

theorem pow_pos' (h : Rounding fl u) (k : ℕ) : 0 < (1 - u) ^ k := pow_pos (one_sub_pos h) k

theorem pow_le_one' (h : Rounding fl u) (k : ℕ) : (1 - u) ^ k ≤ 1 := pow_le_one₀ (one_sub_pos h).le (by linarith [h.nonneg])

theorem Rel.nonneg' (h : Rounding fl u) {k : ℕ} {x y : K} (r : Rel u k x y) : 0 ≤ y :=
  le_trans (mul_nonneg (pow_pos' h k).le r.nonneg) r.left

theorem rel_refl {x : K} (hx : 0 ≤ x) : Rel u 0 x x := ⟨by simp, by simp, hx⟩

theorem rel_mono (h : Rounding fl u) {k l : ℕ} (hkl : k ≤ l) {x y : K} (r : Rel u k x y) : Rel u l x y := by
  have hp : (1 - u) ^ l ≤ (1 - u) ^ k := pow_le_pow_of_le_one (one_sub_pos h).le (by linarith [h.nonneg]) hkl
  exact ⟨le_trans (mul_le_mul_of_nonneg_right hp r.nonneg) r.left,
    le_trans (mul_le_mul_of_nonneg_right hp (Rel.nonneg' h r)) r.right, r.nonneg⟩

theorem rel_fl (h : Rounding fl u) {x : K} (hx : 0 ≤ x) : Rel u 1 x (fl x) := by
  have he := abs_le.1 (h.err x)
  rw [abs_of_nonneg hx] at he
  refine ⟨by rw [pow_one]; linarith, ?_, hx⟩
  rw [pow_one]
  have h1 : fl x ≤ (1 + u) * x := by linarith
  have h2 : (1 - u) * fl x ≤ (1 - u) * ((1 + u) * x) := mul_le_mul_of_nonneg_left h1 (one_sub_pos h).le
  have h3 : (1 - u) * ((1 + u) * x) = x - u * u * x := by ring
  have h4 : 0 ≤ u * u * x := mul_nonneg (mul_self_nonneg u) hx
  linarith

theorem rel_trans (h : Rounding fl u) {k l : ℕ} {x y z : K} (r : Rel u k x y) (s : Rel u l y z) : Rel u (k + l) x z := by
  refine ⟨?_, ?_, r.nonneg⟩
  · calc (1 - u) ^ (k + l) * x = (1 - u) ^ l * ((1 - u) ^ k * x) := by rw [pow_add]; ring
      _ ≤ (1 - u) ^ l * y := mul_le_mul_of_nonneg_left r.left (pow_pos' h l).le
      _ ≤ z := s.left
  · calc (1 - u) ^ (k + l) * z = (1 - u) ^ k * ((1 - u) ^ l * z) := by rw [pow_add]; ring
      _ ≤ (1 - u) ^ k * y := mul_le_mul_of_nonneg_left s.right (pow_pos' h k).le
      _ ≤ x := r.right

theorem rel_mul (h : Rounding fl u) {k l : ℕ} {x y x' y' : K} (r : Rel u k x y) (s : Rel u l x' y') : Rel u (k + l) (x * x') (y * y') := by
  refine ⟨?_, ?_, mul_nonneg r.nonneg s.nonneg⟩
  · calc (1 - u) ^ (k + l) * (x * x') = ((1 - u) ^ k * x) * ((1 - u) ^ l * x') := by rw [pow_add]; ring
      _ ≤ y * y' := mul_le_mul r.left s.left (mul_nonneg (pow_pos' h l).le s.nonneg) (Rel.nonneg' h r)
  · calc (1 - u) ^ (k + l) * (y * y') = ((1 - u) ^ k * y) * ((1 - u) ^ l * y') := by rw [pow_add]; ring
      _ ≤ x * x' := mul_le_mul r.right s.right (mul_nonneg (pow_pos' h l).le (Rel.nonneg' h s)) r.nonneg

theorem rel_pos (h : Rounding fl u) {k : ℕ} {x y : K} (r : Rel u k x y) (hx : 0 < x) : 0 < y :=
  lt_of_lt_of_le (mul_pos (pow_pos' h k) hx) r.left

theorem rel_pos' (h : Rounding fl u) {k : ℕ} {x y : K} (r : Rel u k x y) (hy : 0 < y) : 0 < x :=
  lt_of_lt_of_le (mul_pos (pow_pos' h k) hy) r.right

theorem rel_inv (h : Rounding fl u) {k : ℕ} {x y : K} (r : Rel u k x y) : Rel u k x⁻¹ y⁻¹ := by
  rcases r.nonneg.eq_or_lt with h0 | h0
  · have : y = 0 := by
      have h1 := r.right
      rw [← h0] at h1
      have h2 := Rel.nonneg' h r
      rcases h2.eq_or_lt with h3 | h3
      · exact h3.symm
      · exact absurd h1 (not_le.2 (mul_pos (pow_pos' h k) h3))
    rw [this, ← h0, inv_zero]
    exact ⟨by simp, by simp, le_refl _⟩
  · have hy := rel_pos h r h0
    refine ⟨?_, ?_, (inv_pos.2 h0).le⟩
    · rw [← div_eq_mul_inv, div_le_iff₀ h0, ← div_eq_inv_mul, le_div_iff₀ hy]
      exact r.right
    · rw [← div_eq_mul_inv, div_le_iff₀ hy, ← div_eq_inv_mul, le_div_iff₀ h0]
      exact r.left

theorem rel_div (h : Rounding fl u) {k l : ℕ} {x y x' y' : K} (r : Rel u k x y) (s : Rel u l x' y') : Rel u (k + l) (x / x') (y / y') := by
  rw [div_eq_mul_inv, div_eq_mul_inv]
  exact rel_mul h r (rel_inv h s)

theorem rel_add {k : ℕ} {x y x' y' : K} (r : Rel u k x y) (s : Rel u k x' y') : Rel u k (x + x') (y + y') :=
  ⟨by rw [mul_add]; exact add_le_add r.left s.left, by rw [mul_add]; exact add_le_add r.right s.right, add_nonneg r.nonneg s.nonneg⟩

/-- the same after one more rounding -/
theorem rel_step (h : Rounding fl u) {k : ℕ} {x y : K} (r : Rel u k x y) : Rel u (k + 1) x (fl y) :=
  rel_trans h r (rel_fl h (Rel.nonneg' h r))

theorem rel_list_sum (l : List K) (m : List K) {k : ℕ} (h : List.Forall₂ (Rel u k) l m) : Rel u k l.sum m.sum := by
  induction h with
  | nil => simpa using ⟨by simp, by simp, le_refl _⟩
  | cons hx _ ih => simp only [List.sum_cons]; exact rel_add hx ih

/-- what `Rel` says in terms of relative errors -/
theorem rel_bounds (h : Rounding fl u) {k : ℕ} {x y : K} (r : Rel u k x y) (hk : k * u < 1) : (1 - k * u) * x ≤ y ∧ y ≤ x / (1 - k * u) := by
  have hb : 1 - k * u ≤ (1 - u) ^ k := by
    have := one_add_mul_le_pow (a := -u) (by linarith [h.lt_one]) k
    rw [← sub_eq_add_neg] at this
    linarith
  refine ⟨le_trans (mul_le_mul_of_nonneg_right hb r.nonneg) r.left, ?_⟩
  rw [le_div_iff₀ (by linarith), mul_comm]
  exact le_trans (mul_le_mul_of_nonneg_right hb (Rel.nonneg' h r)) r.right

end Rel

section Sums

theorem flSum_ne_nil {l : List K} {s : K} (hs : FlSum fl l s) : l ≠ [] := by
  induction hs with
  | one x => simp
  | add _ _ ih _ => simp [ih]
  | perm _ hp ih => intro h; rw [h] at hp; exact ih hp.eq_nil

theorem flSum_rel (h : Rounding fl u) {l : List K} {s : K} (hs : FlSum fl l s) (h0 : ∀ x ∈ l, 0 ≤ x) : Rel u (l.length - 1) l.sum s := by
  induction hs with
  | one x => simpa using rel_refl (h0 x (by simp))
  | @add a b s t ha hb iha ihb =>
    have h1 : 0 < a.length := List.length_pos_iff.2 (flSum_ne_nil ha)
    have h2 : 0 < b.length := List.length_pos_iff.2 (flSum_ne_nil hb)
    have r1 := rel_mono h (l := a.length + b.length - 2) (by omega) (iha fun x hx => h0 x (by simp [hx]))
    have r2 := rel_mono h (l := a.length + b.length - 2) (by omega) (ihb fun x hx => h0 x (by simp [hx]))
    have := rel_step h (rel_add r1 r2)
    rw [List.sum_append, List.length_append]
    have he : a.length + b.length - 2 + 1 = a.length + b.length - 1 := by omega
    rw [he] at this
    exact this
  | perm _ hp ih =>
    rw [← hp.sum_eq, ← hp.length_eq]
    exact ih fun x hx => h0 x (hp.mem_iff.1 hx)

/-- a sum is at least each of its terms -/
theorem flSum_ge (h : Rounding fl u) {l : List K} {s : K} (hs : FlSum fl l s) (h0 : ∀ x ∈ l, 0 ≤ x ∧ IsFloat fl x) :
    IsFloat fl s ∧ 0 ≤ s ∧ ∀ x ∈ l, x ≤ s := by
  induction hs with
  | one x => simpa using ⟨(h0 x (by simp)).2, (h0 x (by simp)).1⟩
  | @add a b s t ha hb iha ihb =>
    obtain ⟨f1, n1, g1⟩ := iha fun x hx => h0 x (by simp [hx])
    obtain ⟨f2, n2, g2⟩ := ihb fun x hx => h0 x (by simp [hx])
    have hs1 : s ≤ fl (s + t) := by
      have := h.mono s (s + t) (by linarith)
      rwa [f1] at this
    have ht1 : t ≤ fl (s + t) := by
      have := h.mono t (s + t) (by linarith)
      rwa [f2] at this
    refine ⟨h.idem _, n1.trans hs1, fun x hx => ?_⟩
    rcases List.mem_append.1 hx with hx | hx
    · exact (g1 x hx).trans hs1
    · exact (g2 x hx).trans ht1
  | perm _ hp ih =>
    obtain ⟨f, n, g⟩ := ih fun x hx => h0 x (hp.mem_iff.1 hx)
    exact ⟨f, n, fun x hx => g x (hp.mem_iff.2 hx)⟩

theorem flCumsumFrom_length (c : K) (l : List K) : (flCumsumFrom fl c l).length = l.length := by
  induction l generalizing c with
  | nil => rfl
  | cons x t ih => simp [flCumsumFrom, ih]

theorem flCumsum_length (l : List K) : (flCumsum fl l).length = l.length := by
  cases l with
  | nil => rfl
  | cons x t => simp [flCumsum, flCumsumFrom_length]

theorem flCumsumFrom_sum (l : List K) : ∀ (p : List K) (c : K), FlSum fl p c → ∀ (i : ℕ) v, (flCumsumFrom fl c l)[i]? = some v →
    FlSum fl (p ++ l.take (i + 1)) v := by
  induction l with
  | nil => intro p c _ i v hv; simp [flCumsumFrom] at hv
  | cons x t ih =>
    intro p c hp i v hv
    have h1 : FlSum fl (p ++ [x]) (fl (c + x)) := .add hp (.one x)
    cases i with
    | zero =>
      simp only [flCumsumFrom, List.getElem?_cons_zero, Option.some.injEq] at hv
      rw [← hv]
      simpa using h1
    | succ i =>
      simp only [flCumsumFrom, List.getElem?_cons_succ] at hv
      have := ih _ _ h1 i v hv
      simpa using this

/-- entry `i` of the cumulated sum is a sum of the first `i + 1` entries -/
theorem flCumsum_sum (l : List K) (i : ℕ) (v : K) (hv : (flCumsum fl l)[i]? = some v) : FlSum fl (l.take (i + 1)) v := by
  cases l with
  | nil => simp [flCumsum] at hv
  | cons x t =>
    cases i with
    | zero =>
      simp only [flCumsum, List.getElem?_cons_zero, Option.some.injEq] at hv
      rw [← hv]
      simpa using FlSum.one x
    | succ i =>
      simp only [flCumsum, List.getElem?_cons_succ] at hv
      simpa using flCumsumFrom_sum t [x] x (.one x) i v hv

theorem flCumsumFrom_mono (h : Rounding fl u) (l : List K) (h0 : ∀ x ∈ l, 0 ≤ x) : ∀ c, IsFloat fl c →
    (c :: flCumsumFrom fl c l).Pairwise (· ≤ ·) := by
  induction l with
  | nil => intro c _; simp [flCumsumFrom]
  | cons x t ih =>
    intro c hc
    have h1 : c ≤ fl (c + x) := by
      have := h.mono c (c + x) (by linarith [h0 x (by simp)])
      rwa [hc] at this
    have h2 := ih (fun y hy => h0 y (by simp [hy])) (fl (c + x)) (h.idem _)
    rw [flCumsumFrom, List.pairwise_cons]
    refine ⟨fun y hy => ?_, h2⟩
    rcases List.mem_cons.1 hy with rfl | hy
    · exact h1
    · exact h1.trans ((List.pairwise_cons.1 h2).1 y hy)

/-- cumulated sums of rounded numbers that are not negative do not decrease -/
theorem flCumsum_mono (h : Rounding fl u) (l : List K) (h0 : ∀ x ∈ l, 0 ≤ x ∧ IsFloat fl x) : (flCumsum fl l).Pairwise (· ≤ ·) := by
  cases l with
  | nil => exact .nil
  | cons x t => exact flCumsumFrom_mono h t (fun y hy => (h0 y (by simp [hy])).1) x (h0 x (by simp)).2

theorem flCumsum_float (h : Rounding fl u) (l : List K) (h0 : ∀ x ∈ l, 0 ≤ x ∧ IsFloat fl x) :
    ∀ c ∈ flCumsum fl l, 0 ≤ c ∧ IsFloat fl c := by
  intro c hc
  obtain ⟨i, hi, rfl⟩ := List.mem_iff_getElem.1 hc
  have := flSum_ge h (flCumsum_sum l i _ (List.getElem?_eq_getElem hi)) fun x hx => h0 x (List.mem_of_mem_take hx)
  exact ⟨this.2.1, this.1⟩

end Sums

section Curves

theorem rel_zero : Rel u 0 (0 : K) 0 := rel_refl (le_refl 0)

/-- a straight piece, with both ends off by `k` roundings -/
theorem rel_line {k : ℕ} {x0 x1 x y0 y1 z0 z1 : K} (r0 : Rel u k y0 z0) (r1 : Rel u k y1 z1) (h0 : x0 ≤ x) (h1 : x < x1) :
    Rel u k (line x0 y0 x1 y1 x) (line x0 z0 x1 z1 x) := by
  have hd : 0 < x1 - x0 := by linarith
  have e : ∀ y0 y1 : K, line x0 y0 x1 y1 x = (x1 - x) / (x1 - x0) * y0 + (x - x0) / (x1 - x0) * y1 := by
    intro y0 y1; unfold line; field_simp; ring
  have ha : 0 ≤ (x1 - x) / (x1 - x0) := div_nonneg (by linarith) hd.le
  have hb : 0 ≤ (x - x0) / (x1 - x0) := div_nonneg (by linarith) hd.le
  have scale : ∀ {a y z : K}, 0 ≤ a → Rel u k y z → Rel u k (a * y) (a * z) := fun {a y z} h r =>
    ⟨by rw [mul_left_comm]; exact mul_le_mul_of_nonneg_left r.left h, by rw [mul_left_comm]; exact mul_le_mul_of_nonneg_left r.right h,
      mul_nonneg h r.nonneg⟩
  rw [e, e]
  exact rel_add (scale ha r0) (scale hb r1)

/-- interpolation through ordinates that are off by `k` roundings -/
theorem rel_interpGo {k : ℕ} {x : K} (t t' : List (K × K)) (ht : List.Forall₂ (fun p q => p.1 = q.1 ∧ Rel u k p.2 q.2) t t') :
    ∀ (x0 y0 z0 : K), Rel u k y0 z0 → x0 ≤ x → Rel u k (npInterpGo x0 y0 t x) (npInterpGo x0 z0 t' x) := by
  induction ht with
  | nil => intro x0 y0 z0 r _; exact r
  | @cons p q t t' hpq _ ih =>
    intro x0 y0 z0 r hx
    obtain ⟨p1, p2⟩ := p
    obtain ⟨q1, q2⟩ := q
    obtain ⟨rfl, hr⟩ := hpq
    rw [npInterpGo_cons, npInterpGo_cons]
    split
    · next h => exact ih _ _ _ hr h
    · next h => exact rel_line r hr hx (not_le.1 h)

/-- evaluating a straight piece in floating-point numbers costs six roundings -/
theorem flLine_rel (h : Rounding fl u) {x0 x1 x y0 y1 : K} (hy0 : 0 ≤ y0) (hy : y0 ≤ y1) (h0 : x0 ≤ x) (h1 : x < x1) :
    Rel u 6 (line x0 y0 x1 y1 x) (flLine fl x0 y0 x1 y1 x) := by
  have a := rel_fl h (sub_nonneg.2 hy)
  have b := rel_fl h (x := x1 - x0) (by linarith)
  have c := rel_fl h (x := x - x0) (by linarith)
  have d := rel_step h (rel_mul h (rel_step h (rel_div h a b)) c)
  exact rel_step h (rel_add d (rel_mono h (by omega) (rel_refl hy0)))

theorem flInterpGo_rel (h : Rounding fl u) {x : K} (t : List (K × K)) : ∀ (x0 y0 : K), MonoY ((x0, y0) :: t) → 0 ≤ y0 → x0 ≤ x →
    Rel u 6 (npInterpGo x0 y0 t x) (flInterpGo fl x0 y0 t x) := by
  induction t with
  | nil => intro x0 y0 _ hy _; exact rel_mono h (by omega) (rel_refl hy)
  | cons p t ih =>
    intro x0 y0 hm hy hx
    obtain ⟨x1, y1⟩ := p
    have h01 : y0 ≤ y1 := hm.head
    simp only [npInterpGo, flInterpGo]
    split
    · next h' => exact ih _ _ hm.tail (hy.trans h01) h'
    · next h' =>
      split
      · exact rel_mono h (by omega) (rel_refl hy)
      · exact flLine_rel h hy h01 hx (not_le.1 h')

theorem flCumsumFrom_rel (h : Rounding fl u) {k : ℕ} (l l' : List K) (hl : List.Forall₂ (Rel u k) l l') :
    ∀ (m : ℕ) (c c' : K), k ≤ m → Rel u m c c' →
      List.Forall₂ (Rel u (m + l.length)) (cumsumFrom c l) (flCumsumFrom fl c' l') := by
  induction hl with
  | nil => intro m c c' _ _; exact .nil
  | @cons x y t t' hxy _ ih =>
    intro m c c' hkm hc
    have h1 := rel_step h (rel_add hc (rel_mono h hkm hxy))
    simp only [cumsumFrom, flCumsumFrom, List.length_cons]
    refine .cons (rel_mono h (by omega) h1) ?_
    have := ih (m + 1) _ _ (by omega) h1
    rwa [show m + 1 + t.length = m + (t.length + 1) by omega] at this

/-- cumulated sums of entries that are off by `k` roundings -/
theorem flCumsum_rel (h : Rounding fl u) {k : ℕ} (l l' : List K) (hl : List.Forall₂ (Rel u k) l l') :
    List.Forall₂ (Rel u (k + (l.length - 1))) (cumsum l) (flCumsum fl l') := by
  cases hl with
  | nil => exact .nil
  | @cons x y t t' hxy ht =>
    simp only [cumsum, cumsumFrom, flCumsum, zero_add, List.length_cons, Nat.add_sub_cancel]
    exact .cons (rel_mono h (by omega) hxy) (flCumsumFrom_rel h t t' ht k x y le_rfl hxy)

theorem rel_zip {k : ℕ} {ys zs : List K} (h : List.Forall₂ (Rel u k) ys zs) : ∀ xs : List K,
    List.Forall₂ (fun p q : K × K => p.1 = q.1 ∧ Rel u k p.2 q.2) (xs.zip ys) (xs.zip zs) := by
  induction h with
  | nil => intro xs; simp
  | cons hyz _ ih =>
    intro xs
    cases xs with
    | nil => exact .nil
    | cons x xs => exact .cons ⟨rfl, hyz⟩ (ih xs)

theorem rel_forall₂_mono (h : Rounding fl u) {k l : ℕ} (hkl : k ≤ l) {ys zs : List K} (hr : List.Forall₂ (Rel u k) ys zs) :
    List.Forall₂ (Rel u l) ys zs := hr.imp fun _ _ r => rel_mono h hkl r

theorem monoY_zip (xs : List K) : ∀ zs : List K, zs.Pairwise (· ≤ ·) → MonoY (xs.zip zs) := by
  induction xs with
  | nil => intro zs _; simp [MonoY]
  | cons x xs ih =>
    intro zs hz
    cases zs with
    | nil => simp [MonoY]
    | cons z zs =>
      have hz' := List.pairwise_cons.1 hz
      have := ih zs hz'.2
      cases xs with
      | nil => simp [MonoY]
      | cons x' xs =>
        cases zs with
        | nil => simp [MonoY]
        | cons z' zs => exact List.isChain_cons_cons.2 ⟨hz'.1 z' (by simp), this⟩

theorem getLast_fst {k : ℕ} {a b : K × K} {t t' : List (K × K)}
    (h : List.Forall₂ (fun p q : K × K => p.1 = q.1 ∧ Rel u k p.2 q.2) (a :: t) (b :: t')) :
    ((a :: t).getLast (by simp)).1 = ((b :: t').getLast (by simp)).1 := by
  rw [List.forall₂_cons] at h
  obtain ⟨hab, ht⟩ := h
  induction ht generalizing a b with
  | nil => simpa using hab.1
  | cons hpq _ ih => simpa using ih hpq

/-- the interpolating function in floating-point numbers, through ordinates that are off by `k` roundings, is off by `k + 6` roundings -/
theorem flInterp_rel (h : Rounding fl u) {k : ℕ} {lo hi : K} (hlo : 0 ≤ lo) (hhi : 0 ≤ hi) {xs ys zs : List K}
    (hr : List.Forall₂ (Rel u k) ys zs) (hz : zs.Pairwise (· ≤ ·)) (x v : K) (hv : interp lo hi (xs.zip ys) x = some v) :
    ∃ w, flInterp fl lo hi (xs.zip zs) x = some w ∧ Rel u (k + 6) v w := by
  have hf := rel_zip hr xs
  have hm := monoY_zip xs zs hz
  have hnn : ∀ p ∈ xs.zip zs, 0 ≤ p.2 := by
    intro p hp
    have h1 : p.2 ∈ zs := (List.of_mem_zip hp).2
    obtain ⟨i, hi', he⟩ := List.mem_iff_getElem.1 h1
    have hri := List.forall₂_iff_get.1 hr
    have := hri.2 i (by rw [hri.1]; exact hi') hi'
    rw [← he]
    exact Rel.nonneg' h this
  generalize xs.zip ys = A at hf hv
  generalize xs.zip zs = B at hf hm hnn
  cases hf with
  | nil => simp [interp] at hv
  | @cons p q t t' hpq ht =>
    obtain ⟨p1, p2⟩ := p
    obtain ⟨q1, q2⟩ := q
    obtain ⟨he, hpr⟩ := hpq
    simp only at he hpr
    subst he
    have hl := getLast_fst (List.Forall₂.cons ⟨rfl, hpr⟩ ht : List.Forall₂ (fun p q : K × K => p.1 = q.1 ∧ Rel u k p.2 q.2) ((p1, p2) :: t) ((p1, q2) :: t'))
    unfold interp at hv
    unfold flInterp
    simp only at hv ⊢
    rw [hl] at hv
    split at hv
    · next hx =>
      rw [if_pos hx]
      simp only [Option.some.injEq] at hv
      exact ⟨_, rfl, hv ▸ rel_mono h (by omega) (rel_refl hlo)⟩
    · next hx =>
      rw [if_neg hx]
      split at hv
      · next hx2 =>
        rw [if_pos hx2]
        simp only [Option.some.injEq] at hv
        exact ⟨_, rfl, hv ▸ rel_mono h (by omega) (rel_refl hhi)⟩
      · next hx2 =>
        rw [if_neg hx2]
        simp only [Option.some.injEq] at hv
        have h1 := rel_interpGo t t' ht p1 p2 q2 hpr (not_lt.1 hx)
        have h2 := flInterpGo_rel h t' p1 q2 hm (hnn (p1, q2) (by simp)) (not_lt.1 hx)
        exact ⟨_, rfl, hv ▸ rel_trans h h1 h2⟩

end Curves

end Verif.Lemmas.Rounding
