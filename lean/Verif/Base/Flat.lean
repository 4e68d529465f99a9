import Verif.Base.Scalar
import Verif.Base.Loop
import Mathlib.Algebra.BigOperators.Intervals
import Mathlib.Algebra.BigOperators.Fin

/-!
# Dense Eigen matrices and vectors addressed by integer positions

`SolverKKT` and `SolverPROXQP` stack all stages in one big dense matrix and address its blocks by running offsets.  Such a matrix is
a function of the two positions; what it holds beyond its dimensions is never read.
-/
set_option linter.unusedSectionVars false
set_option linter.unusedSimpArgs false

namespace Mim

abbrev FMat (F : Type) := ℕ → ℕ → F
abbrev FVec (F : Type) := ℕ → F

section
variable {F : Type}

/-- `M.block(r, c, m, n) = A` (also `M.middleCols(c, n).middleRows(r, m) = A`). -/
def setBlock (r c : ℕ) {m n : ℕ} (A : Mat F m n) (M : FMat F) : FMat F := fun i j =>
  if h : (r ≤ i ∧ i < r + m) ∧ (c ≤ j ∧ j < c + n) then A ⟨i - r, by omega⟩ ⟨j - c, by omega⟩ else M i j

/-- `v.segment(r, m) = w`. -/
def setSeg (r : ℕ) {m : ℕ} (w : Vec F m) (v : FVec F) : FVec F := fun i =>
  if h : r ≤ i ∧ i < r + m then w ⟨i - r, by omega⟩ else v i

/-- `v.segment(r, m)`. -/
def seg (r m : ℕ) (v : FVec F) : Vec F m := fun i => v (r + i)

/-- `MatrixXd::Identity(n, n)`. -/
def idMat [Zero F] [One F] (n : ℕ) : Mat F n n := Matrix.of fun i j => if i = j then 1 else 0

/-- the running offset `iu`, `index_u`, `nin_count` after `t` stages of sizes `d 0, d 1, …`. -/
def offs (d : ℕ → ℕ) : ℕ → ℕ
  | 0 => 0
  | t + 1 => offs d t + d t

variable {d : ℕ → ℕ}

theorem offs_const (n t : ℕ) : offs (fun _ => n) t = t * n := by
  induction t with
  | zero => simp [offs]
  | succ t ih => rw [offs, ih]; ring

theorem offs_mono {a b : ℕ} (h : a ≤ b) : offs d a ≤ offs d b := by
  induction h with
  | refl => exact le_rfl
  | step _ ih => exact ih.trans (Nat.le_add_right _ _)

theorem offs_lt {a b : ℕ} (h : a < b) {i : ℕ} (hi : i < d a) : offs d a + i < offs d b := by
  have : offs d (a + 1) ≤ offs d b := offs_mono h
  rw [offs] at this
  omega

/-- position `i` of stage `a` lies in the range of stage `b` iff `a = b`. -/
theorem offs_mem {a b i : ℕ} (hi : i < d a) : (offs d b ≤ offs d a + i ∧ offs d a + i < offs d b + d b) ↔ a = b := by
  constructor
  · rintro ⟨h1, h2⟩
    rcases lt_trichotomy a b with h | h | h
    · have := offs_lt (d := d) h hi; omega
    · exact h
    · have : offs d (b + 1) ≤ offs d a := offs_mono h
      rw [offs] at this; omega
  · rintro rfl; omega

theorem offs_inj {a b i j : ℕ} (hi : i < d a) (hj : j < d b) (h : offs d a + i = offs d b + j) : a = b ∧ i = j := by
  have : a = b := (offs_mem hi).mp ⟨by omega, by omega⟩
  subst this; exact ⟨rfl, by omega⟩

/-- every position below `offs d n` belongs to a stage. -/
theorem offs_cover {n j : ℕ} (h : j < offs d n) : ∃ t, t < n ∧ ∃ i, i < d t ∧ j = offs d t + i := by
  induction n with
  | zero => simp [offs] at h
  | succ n ih =>
    by_cases hj : j < offs d n
    · obtain ⟨t, ht, r⟩ := ih hj; exact ⟨t, by omega, r⟩
    · rw [offs] at h; exact ⟨n, by omega, j - offs d n, by omega, by omega⟩

/-- a sum over all positions, stage by stage. -/
theorem sum_offs {K : Type} [AddCommMonoid K] (d : ℕ → ℕ) (n : ℕ) (f : ℕ → K) :
    ∑ j ∈ Finset.range (offs d n), f j = ∑ t ∈ Finset.range n, ∑ i : Fin (d t), f (offs d t + i) := by
  induction n with
  | zero => simp [offs]
  | succ n ih => rw [offs, Finset.sum_range_add, ih, Finset.sum_range_succ, Finset.sum_range (n := d n)]

theorem setBlock_in {r c m n : ℕ} (A : Mat F m n) (M : FMat F) (i : Fin m) (j : Fin n) : setBlock r c A M (r + i) (c + j) = A i j := by
  unfold setBlock
  rw [dif_pos ⟨⟨by omega, by omega⟩, by omega, by omega⟩]
  congr 1 <;> exact Fin.ext (by simp)

theorem setBlock_row {r c m n : ℕ} (A : Mat F m n) (M : FMat F) {i j : ℕ} (h : i < r ∨ r + m ≤ i) : setBlock r c A M i j = M i j := by
  unfold setBlock; rw [dif_neg (by omega)]

theorem setBlock_col {r c m n : ℕ} (A : Mat F m n) (M : FMat F) {i j : ℕ} (h : j < c ∨ c + n ≤ j) : setBlock r c A M i j = M i j := by
  unfold setBlock; rw [dif_neg (by omega)]

theorem setSeg_in {r m : ℕ} (w : Vec F m) (v : FVec F) (i : Fin m) : setSeg r w v (r + i) = w i := by
  unfold setSeg
  rw [dif_pos ⟨by omega, by omega⟩]
  congr 1; exact Fin.ext (by simp)

theorem setSeg_out {r m : ℕ} (w : Vec F m) (v : FVec F) {i : ℕ} (h : i < r ∨ r + m ≤ i) : setSeg r w v i = v i := by
  unfold setSeg; rw [dif_neg (by omega)]

end
end Mim

namespace Mim

/-- positions of different stages of equal size do not meet. -/
theorem blk_ne {n t k i : ℕ} (hi : i < n) (h : t ≠ k) : t * n + i < k * n ∨ k * n + n ≤ t * n + i := by
  have := (offs_mem (d := fun _ => n) (a := t) (b := k) hi).not.mpr h
  rw [offs_const, offs_const] at this
  omega

theorem offs_ne {d : ℕ → ℕ} {t k i : ℕ} (hi : i < d t) (h : t ≠ k) : offs d t + i < offs d k ∨ offs d k + d k ≤ offs d t + i := by
  have := (offs_mem (d := d) (a := t) (b := k) hi).not.mpr h
  omega

theorem blk_lt {n t T i : ℕ} (hi : i < n) (h : t < T) : t * n + i < T * n := by
  have := offs_lt (d := fun _ => n) h hi
  rwa [offs_const, offs_const] at this

theorem offs_succ_le {d : ℕ → ℕ} {t T : ℕ} (h : t < T) : offs d t + d t ≤ offs d T := by
  have : offs d (t + 1) ≤ offs d T := offs_mono h
  rwa [offs] at this

/-- a sum over stages of equal size. -/
theorem sum_blk {K : Type} [AddCommMonoid K] (n m : ℕ) (f : ℕ → K) :
    ∑ j ∈ Finset.range (m * n), f j = ∑ t ∈ Finset.range m, ∑ i : Fin n, f (t * n + i) := by
  have := sum_offs (fun _ => n) m f
  simpa only [offs_const] using this

end Mim
