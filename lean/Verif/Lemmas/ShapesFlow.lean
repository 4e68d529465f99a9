import Verif.Lemmas.Shapes

/-!
# Every pass fits the right sizes and reads only what has been sized
-/
set_option autoImplicit false
set_option linter.unusedSectionVars false
set_option linter.unusedSimpArgs false

namespace Mim.Shape
open Arr

/-- the elements that `resizeData` does not resize although their size depends on the problem's controls, or that the
constructor leaves empty: each is assigned before it is read. -/
def hot : Arr → Bool
  | llt | xnext | du | tmpU => true
  | _ => false

/-- the elements outside `hot`, one array at a time. -/
structure Cold (S : Arr × ℕ → Prop) : Prop where
  xs : ∀ t, S (Arr.xs, t)
  us : ∀ t, S (Arr.us, t)
  fs : ∀ t, S (Arr.fs, t)
  Vxx : ∀ t, S (Arr.Vxx, t)
  Vx : ∀ t, S (Arr.Vx, t)
  Qxx : ∀ t, S (Arr.Qxx, t)
  Qxu : ∀ t, S (Arr.Qxu, t)
  Quu : ∀ t, S (Arr.Quu, t)
  Qx : ∀ t, S (Arr.Qx, t)
  Qu : ∀ t, S (Arr.Qu, t)
  K : ∀ t, S (Arr.K, t)
  k : ∀ t, S (Arr.k, t)
  xsTry : ∀ t, S (Arr.xsTry, t)
  usTry : ∀ t, S (Arr.usTry, t)
  dx : ∀ t, S (Arr.dx, t)
  FuTVxx : ∀ t, S (Arr.FuTVxx, t)
  Quuk : ∀ t, S (Arr.Quuk, t)
  VxxTmp : ∀ t, S (Arr.VxxTmp, t)
  FxTVxx : ∀ t, S (Arr.FxTVxx, t)
  fTVxx : ∀ t, S (Arr.fTVxx, t)
  lagMul : ∀ t, S (Arr.lagMul, t)
  fsFlat : ∀ t, S (Arr.fsFlat, t)
  fsTry : ∀ t, S (Arr.fsTry, t)
  tmpX : ∀ t, S (Arr.tmpX, t)

theorem cold {S : Arr × ℕ → Prop} (h : ∀ a t, hot a = false → S (a, t)) : Cold S :=
  ⟨fun t => h _ t rfl, fun t => h _ t rfl, fun t => h _ t rfl, fun t => h _ t rfl,
    fun t => h _ t rfl, fun t => h _ t rfl, fun t => h _ t rfl, fun t => h _ t rfl, fun t => h _ t rfl,
    fun t => h _ t rfl, fun t => h _ t rfl, fun t => h _ t rfl, fun t => h _ t rfl, fun t => h _ t rfl,
    fun t => h _ t rfl, fun t => h _ t rfl, fun t => h _ t rfl, fun t => h _ t rfl, fun t => h _ t rfl,
    fun t => h _ t rfl, fun t => h _ t rfl, fun t => h _ t rfl, fun t => h _ t rfl, fun t => h _ t rfl⟩

/-- the part of the table of sizes common to the solvers; `dx_` has at least `T` elements. -/
structure Like (R : Store) (d : Dims) : Prop where
  xs : ∀ t, R xs t = nth (d.T + 1) t d.nx 1
  us : ∀ t, R us t = nth d.T t (d.nu t) 1
  fs : ∀ t, R fs t = nth (d.T + 1) t d.ndx 1
  Vxx : ∀ t, R Vxx t = nth (d.T + 1) t d.ndx d.ndx
  Vx : ∀ t, R Vx t = nth (d.T + 1) t d.ndx 1
  Qxx : ∀ t, R Qxx t = nth d.T t d.ndx d.ndx
  Qxu : ∀ t, R Qxu t = nth d.T t d.ndx (d.nu t)
  Quu : ∀ t, R Quu t = nth d.T t (d.nu t) (d.nu t)
  Qx : ∀ t, R Qx t = nth d.T t d.ndx 1
  Qu : ∀ t, R Qu t = nth d.T t (d.nu t) 1
  K : ∀ t, R K t = nth d.T t (d.nu t) d.ndx
  k : ∀ t, R k t = nth d.T t (d.nu t) 1
  xsTry : ∀ t, R xsTry t = nth (d.T + 1) t d.nx 1
  usTry : ∀ t, R usTry t = nth d.T t (d.nu t) 1
  dx : ∀ t, t < d.T → R dx t = some ⟨d.ndx, 1⟩
  FuTVxx : ∀ t, R FuTVxx t = nth d.T t (d.nu t) d.ndx
  llt : ∀ t, R llt t = nth d.T t (d.nu t) (d.nu t)
  Quuk : ∀ t, R Quuk t = nth d.T t (d.nu t) 1
  VxxTmp : R VxxTmp 0 = some ⟨d.ndx, d.ndx⟩
  FxTVxx : R FxTVxx 0 = some ⟨d.ndx, d.ndx⟩
  fTVxx : R fTVxx 0 = some ⟨d.ndx, 1⟩
  lagMul : ∀ t, R lagMul t = nth (d.T + 1) t d.ndx 1
  fsFlat : R fsFlat 0 = some ⟨d.ndx * (d.T + 1), 1⟩

theorem likeDDP (d : Dims) : Like (sizeDDP d) d where
  xs _ := rfl
  us _ := rfl
  fs _ := rfl
  Vxx _ := rfl
  Vx _ := rfl
  Qxx _ := rfl
  Qxu _ := rfl
  Quu _ := rfl
  Qx _ := rfl
  Qu _ := rfl
  K _ := rfl
  k _ := rfl
  xsTry _ := rfl
  usTry _ := rfl
  dx t ht := by simp [sizeDDP, sizeBase, nth, ht]
  FuTVxx _ := rfl
  llt _ := rfl
  Quuk _ := rfl
  VxxTmp := rfl
  FxTVxx := rfl
  fTVxx := rfl
  lagMul _ := rfl
  fsFlat := rfl

theorem likeFDDP (d : Dims) : Like (sizeFDDP d) d where
  xs _ := rfl
  us _ := rfl
  fs _ := rfl
  Vxx _ := rfl
  Vx _ := rfl
  Qxx _ := rfl
  Qxu _ := rfl
  Quu _ := rfl
  Qx _ := rfl
  Qu _ := rfl
  K _ := rfl
  k _ := rfl
  xsTry _ := rfl
  usTry _ := rfl
  dx t ht := by simp [sizeFDDP, sizeBase, nth, ht]
  FuTVxx _ := rfl
  llt _ := rfl
  Quuk _ := rfl
  VxxTmp := rfl
  FxTVxx := rfl
  fTVxx := rfl
  lagMul _ := rfl
  fsFlat := rfl

theorem likeSQP (d : Dims) : Like (sizeSQP d) d where
  xs _ := rfl
  us _ := rfl
  fs _ := rfl
  Vxx _ := rfl
  Vx _ := rfl
  Qxx _ := rfl
  Qxu _ := rfl
  Quu _ := rfl
  Qx _ := rfl
  Qu _ := rfl
  K _ := rfl
  k _ := rfl
  xsTry _ := rfl
  usTry _ := rfl
  dx t ht := by simp [sizeSQP, sizeBase, nth, Nat.lt_succ_of_lt ht, Nat.le_of_lt ht]
  FuTVxx _ := rfl
  llt _ := rfl
  Quuk _ := rfl
  VxxTmp := rfl
  FxTVxx := rfl
  fTVxx := rfl
  lagMul _ := rfl
  fsFlat := rfl

section
variable {R : Store} {d : Dims} {S : Arr × ℕ → Prop}

theorem flow_setWarm (h : Like R d) (c : Cold S) : Flow R S (setWarm d) := by
  refine Flow.append (Flow.each fun t ht => ?_) (Flow.each fun t ht => ?_)
  · have ht := List.mem_range.1 ht
    simp [Flow, Fits, St.exec, St.reads, St.writes, E.shape, E.reads, h.xs, nth, ht, Nat.lt_succ_iff.1 ht,
      put_eq_self]
  · have ht := List.mem_range.1 ht
    simp [Flow, Fits, St.exec, St.reads, St.writes, E.shape, E.reads, h.us, nth, ht, put_eq_self]

theorem flow_start (h : Like R d) (c : Cold S) : Flow R S (start d) := by
  refine Flow.append (Flow.append ?_ (flow_setWarm h c)) ?_
  · simp [Flow, Fits, St.exec, St.reads, St.writes, E.shape, E.reads, h.xsTry, nth, put_eq_self]
  · simp [Flow, Fits, St.exec, St.reads, St.writes, E.shape, E.reads, h.xsTry, h.xs, nth, put_eq_self]

theorem flow_setTry (h : Like R d) (c : Cold S) : Flow R S (setTry d) := by
  refine Flow.append (Flow.each fun t ht => ?_) (Flow.each fun t ht => ?_)
  · have ht := List.mem_range.1 ht
    simp [Flow, Fits, St.exec, St.reads, St.writes, E.shape, E.reads, h.xs, h.xsTry, nth, ht, Nat.lt_succ_iff.1 ht,
      put_eq_self, c.xs, c.us, c.fs, c.Vxx, c.Vx, c.Qxx, c.Qxu, c.Quu, c.Qx, c.Qu, c.K, c.k, c.xsTry, c.usTry, c.dx,
        c.FuTVxx, c.Quuk, c.VxxTmp, c.FxTVxx, c.fTVxx, c.lagMul, c.fsFlat, c.fsTry, c.tmpX]
  · have ht := List.mem_range.1 ht
    simp [Flow, Fits, St.exec, St.reads, St.writes, E.shape, E.reads, h.us, h.usTry, nth, ht, put_eq_self, c.xs,
      c.us, c.fs, c.Vxx, c.Vx, c.Qxx, c.Qxu, c.Quu, c.Qx, c.Qu, c.K, c.k, c.xsTry, c.usTry, c.dx, c.FuTVxx, c.Quuk,
        c.VxxTmp, c.FxTVxx, c.fTVxx, c.lagMul, c.fsFlat, c.fsTry, c.tmpX]

theorem flow_calcDiff (h : Like R d) (c : Cold S) : Flow R S (calcDiff d) := by
  refine Flow.append (Flow.each fun t ht => ?_) ?_
  · have ht := List.mem_range.1 ht
    simp [Flow, Fits, St.exec, St.reads, St.writes, E.shape, E.reads, h.xs, h.us, h.fs, nth, ht, Nat.le_of_lt ht,
      Nat.lt_succ_of_lt ht, c.xs, c.us, c.fs, c.Vxx, c.Vx, c.Qxx, c.Qxu, c.Quu, c.Qx, c.Qu, c.K, c.k, c.xsTry,
        c.usTry, c.dx, c.FuTVxx, c.Quuk, c.VxxTmp, c.FxTVxx, c.fTVxx, c.lagMul, c.fsFlat, c.fsTry, c.tmpX]
  · simp [Flow, Fits, St.exec, St.reads, St.writes, E.shape, E.reads, h.xs, h.fs, nth, c.xs, c.us, c.fs, c.Vxx, c.Vx,
    c.Qxx, c.Qxu, c.Quu, c.Qx, c.Qu, c.K, c.k, c.xsTry, c.usTry, c.dx, c.FuTVxx, c.Quuk, c.VxxTmp, c.FxTVxx, c.fTVxx,
      c.lagMul, c.fsFlat, c.fsTry, c.tmpX]

theorem flow_gaps (h : Like R d) (c : Cold S) : Flow R S (gapNorm d) := by
  refine Flow.append (Flow.each fun t ht => ?_) ?_
  · have ht := List.mem_range.1 ht
    simp [Flow, Fits, St.exec, St.reads, St.writes, E.shape, E.reads, h.fs, nth, ht, Nat.le_of_lt ht,
      Nat.lt_succ_of_lt ht, c.xs, c.us, c.fs, c.Vxx, c.Vx, c.Qxx, c.Qxu, c.Quu, c.Qx, c.Qu, c.K, c.k, c.xsTry,
        c.usTry, c.dx, c.FuTVxx, c.Quuk, c.VxxTmp, c.FxTVxx, c.fTVxx, c.lagMul, c.fsFlat, c.fsTry, c.tmpX]
  · simp [Flow, Fits, St.exec, St.reads, St.writes, E.shape, E.reads, h.fs, nth, c.xs, c.us, c.fs, c.Vxx, c.Vx,
    c.Qxx, c.Qxu, c.Quu, c.Qx, c.Qu, c.K, c.k, c.xsTry, c.usTry, c.dx, c.FuTVxx, c.Quuk, c.VxxTmp, c.FxTVxx, c.fTVxx,
      c.lagMul, c.fsFlat, c.fsTry, c.tmpX]

theorem flow_gains (h : Like R d) (c : Cold S) (t : ℕ) (ht : t < d.T) :
    Flow R S (computeGains d t) := by
  unfold computeGains
  by_cases hn : d.nu t = 0
  · simp [hn, Flow]
  · simp [hn, Flow, Fits, St.exec, St.reads, St.writes, E.shape, E.reads, h.Quu, h.llt, h.K, h.Qxu, h.k, h.Qu, nth,
    ht,
      put_eq_self, c.xs, c.us, c.fs, c.Vxx, c.Vx, c.Qxx, c.Qxu, c.Quu, c.Qx, c.Qu, c.K, c.k, c.xsTry, c.usTry, c.dx,
        c.FuTVxx, c.Quuk, c.VxxTmp, c.FxTVxx, c.fTVxx, c.lagMul, c.fsFlat, c.fsTry, c.tmpX]

theorem flow_node (h : Like R d) (c : Cold S) (feas : Bool) (t : ℕ) (ht : t < d.T) :
    Flow R S (backwardNode d feas t) := by
  unfold backwardNode
  refine Flow.append (Flow.append (Flow.append (Flow.append (Flow.append (Flow.append (Flow.append ?_ ?_)
    (flow_gains h c t ht)) ?_) ?_) ?_) ?_) ?_
  · simp [Flow, Fits, St.exec, St.reads, St.writes, E.shape, E.reads, h.FxTVxx, h.Vxx, h.Vx, h.Qx, h.Qxx, nth, ht,
      put_eq_self, c.xs, c.us, c.fs, c.Vxx, c.Vx, c.Qxx, c.Qxu, c.Quu, c.Qx, c.Qu, c.K, c.k, c.xsTry, c.usTry, c.dx,
        c.FuTVxx, c.Quuk, c.VxxTmp, c.FxTVxx, c.fTVxx, c.lagMul, c.fsFlat, c.fsTry, c.tmpX]
  · by_cases hn : d.nu t = 0
    · simp [hn, Flow]
    · simp [hn, Flow, Fits, St.exec, St.reads, St.writes, E.shape, E.reads, h.FxTVxx, h.FuTVxx, h.Vxx, h.Vx, h.Qu,
      h.Quu,
        h.Qxu, nth, ht, put_eq_self, c.xs, c.us, c.fs, c.Vxx, c.Vx, c.Qxx, c.Qxu, c.Quu, c.Qx, c.Qu, c.K, c.k,
          c.xsTry, c.usTry, c.dx, c.FuTVxx, c.Quuk, c.VxxTmp, c.FxTVxx, c.fTVxx, c.lagMul, c.fsFlat, c.fsTry, c.tmpX]
  · simp [Flow, Fits, St.exec, St.reads, St.writes, E.shape, E.reads, h.Vxx, h.Vx, h.Qx, h.Qxx, nth, ht,
    Nat.le_of_lt ht,
      Nat.lt_succ_of_lt ht, put_eq_self, c.xs, c.us, c.fs, c.Vxx, c.Vx, c.Qxx, c.Qxu, c.Quu, c.Qx, c.Qu, c.K, c.k,
        c.xsTry, c.usTry, c.dx, c.FuTVxx, c.Quuk, c.VxxTmp, c.FxTVxx, c.fTVxx, c.lagMul, c.fsFlat, c.fsTry, c.tmpX]
  · by_cases hn : d.nu t = 0
    · simp [hn, Flow]
    · simp [hn, Flow, Fits, St.exec, St.reads, St.writes, E.shape, E.reads, h.Vxx, h.Vx, h.Qu, h.Quu, h.Quuk, h.K,
      h.k,
        h.Qxu, nth, ht, Nat.le_of_lt ht, Nat.lt_succ_of_lt ht, put_eq_self, c.xs, c.us, c.fs, c.Vxx, c.Vx, c.Qxx,
          c.Qxu, c.Quu, c.Qx, c.Qu, c.K, c.k, c.xsTry, c.usTry, c.dx, c.FuTVxx, c.Quuk, c.VxxTmp, c.FxTVxx, c.fTVxx,
            c.lagMul, c.fsFlat, c.fsTry, c.tmpX]
  · simp [Flow, Fits, St.exec, St.reads, St.writes, E.shape, E.reads, h.Vxx, h.VxxTmp, nth, ht, Nat.le_of_lt ht,
      Nat.lt_succ_of_lt ht, put_eq_self, c.xs, c.us, c.fs, c.Vxx, c.Vx, c.Qxx, c.Qxu, c.Quu, c.Qx, c.Qu, c.K, c.k,
        c.xsTry, c.usTry, c.dx, c.FuTVxx, c.Quuk, c.VxxTmp, c.FxTVxx, c.fTVxx, c.lagMul, c.fsFlat, c.fsTry, c.tmpX]
  · cases feas <;> simp [Flow, Fits, St.exec, St.reads, St.writes, E.shape, E.reads, h.Vxx, h.Vx, h.fs, nth, ht,
    Nat.le_of_lt ht,
      Nat.lt_succ_of_lt ht, put_eq_self, c.xs, c.us, c.fs, c.Vxx, c.Vx, c.Qxx, c.Qxu, c.Quu, c.Qx, c.Qu, c.K, c.k,
        c.xsTry, c.usTry, c.dx, c.FuTVxx, c.Quuk, c.VxxTmp, c.FxTVxx, c.fTVxx, c.lagMul, c.fsFlat, c.fsTry, c.tmpX]
  · simp [Flow, Fits, St.exec, St.reads, St.writes, E.shape, E.reads, h.Vxx, h.Vx, nth, ht, Nat.le_of_lt ht,
      Nat.lt_succ_of_lt ht, put_eq_self, c.xs, c.us, c.fs, c.Vxx, c.Vx, c.Qxx, c.Qxu, c.Quu, c.Qx, c.Qu, c.K, c.k,
        c.xsTry, c.usTry, c.dx, c.FuTVxx, c.Quuk, c.VxxTmp, c.FxTVxx, c.fTVxx, c.lagMul, c.fsFlat, c.fsTry, c.tmpX]

theorem flow_backward (h : Like R d) (c : Cold S) (feas : Bool) :
    Flow R S (backwardPass d feas) := by
  refine Flow.append (Flow.append ?_ ?_) (Flow.each fun t ht => ?_)
  · simp [Flow, Fits, St.exec, St.reads, St.writes, E.shape, E.reads, h.Vxx, h.Vx, nth, put_eq_self, c.xs, c.us,
    c.fs, c.Vxx, c.Vx, c.Qxx, c.Qxu, c.Quu, c.Qx, c.Qu, c.K, c.k, c.xsTry, c.usTry, c.dx, c.FuTVxx, c.Quuk, c.VxxTmp,
      c.FxTVxx, c.fTVxx, c.lagMul, c.fsFlat, c.fsTry, c.tmpX]
  · cases feas <;> simp [Flow, Fits, St.exec, St.reads, St.writes, E.shape, E.reads, h.Vxx, h.Vx, h.fs, nth,
    put_eq_self,
      c.xs, c.us, c.fs, c.Vxx, c.Vx, c.Qxx, c.Qxu, c.Quu, c.Qx, c.Qu, c.K, c.k, c.xsTry, c.usTry, c.dx, c.FuTVxx,
        c.Quuk, c.VxxTmp, c.FxTVxx, c.fTVxx, c.lagMul, c.fsFlat, c.fsTry, c.tmpX]
  · exact flow_node h c feas t (by simpa using ht)

theorem flow_forwardDDP (hT : 1 ≤ d.T) (h : Like R d) (c : Cold S) :
    Flow R S (forwardDDP d) := by
  have hd : R dx (d.T - 1) = some ⟨d.ndx, 1⟩ := h.dx _ (by omega)
  refine Flow.append (Flow.each fun t ht => Flow.append (Flow.append ?_ ?_) ?_) ?_
  · have ht := List.mem_range.1 ht
    simp [Flow, Fits, St.exec, St.reads, St.writes, E.shape, E.reads, h.Vxx, h.Vx, h.lagMul, h.dx, h.xs, h.xsTry,
      nth, ht,
      Nat.le_of_lt ht, Nat.lt_succ_of_lt ht, put_eq_self, c.xs, c.us, c.fs, c.Vxx, c.Vx, c.Qxx, c.Qxu, c.Quu, c.Qx,
        c.Qu, c.K, c.k, c.xsTry, c.usTry, c.dx, c.FuTVxx, c.Quuk, c.VxxTmp, c.FxTVxx, c.fTVxx, c.lagMul, c.fsFlat,
          c.fsTry, c.tmpX]
  · have ht := List.mem_range.1 ht
    by_cases hn : d.nu t = 0
    · simp [hn, Flow, Fits, St.exec, St.reads, St.writes, E.shape, E.reads, h.xsTry, nth, ht, Nat.le_of_lt ht,
        Nat.lt_succ_of_lt ht, c.xs, c.us, c.fs, c.Vxx, c.Vx, c.Qxx, c.Qxu, c.Quu, c.Qx, c.Qu, c.K, c.k, c.xsTry,
          c.usTry, c.dx, c.FuTVxx, c.Quuk, c.VxxTmp, c.FxTVxx, c.fTVxx, c.lagMul, c.fsFlat, c.fsTry, c.tmpX]
    · simp [hn, Flow, Fits, St.exec, St.reads, St.writes, E.shape, E.reads, h.us, h.usTry, h.k, h.K, h.dx, h.xsTry,
      nth, ht,
        Nat.le_of_lt ht, Nat.lt_succ_of_lt ht, put_eq_self, c.xs, c.us, c.fs, c.Vxx, c.Vx, c.Qxx, c.Qxu, c.Quu, c.Qx,
          c.Qu, c.K, c.k, c.xsTry, c.usTry, c.dx, c.FuTVxx, c.Quuk, c.VxxTmp, c.FxTVxx, c.fTVxx, c.lagMul, c.fsFlat,
            c.fsTry, c.tmpX]
  · have ht := List.mem_range.1 ht
    simp [Flow, Fits, St.exec, St.reads, St.writes, E.shape, E.reads, h.xsTry, nth, ht, put_eq_self, c.xs, c.us,
      c.fs, c.Vxx, c.Vx, c.Qxx, c.Qxu, c.Quu, c.Qx, c.Qu, c.K, c.k, c.xsTry, c.usTry, c.dx, c.FuTVxx, c.Quuk,
        c.VxxTmp, c.FxTVxx, c.fTVxx, c.lagMul, c.fsFlat, c.fsTry, c.tmpX]
  · simp [Flow, Fits, St.exec, St.reads, St.writes, E.shape, E.reads, h.Vxx, h.Vx, h.lagMul, hd, h.xsTry, nth,
    put_eq_self,
      c.xs, c.us, c.fs, c.Vxx, c.Vx, c.Qxx, c.Qxu, c.Quu, c.Qx, c.Qu, c.K, c.k, c.xsTry, c.usTry, c.dx, c.FuTVxx,
        c.Quuk, c.VxxTmp, c.FxTVxx, c.fTVxx, c.lagMul, c.fsFlat, c.fsTry, c.tmpX]

theorem flow_kkt (h : Like R d) (c : Cold S) : Flow R S (kktDDP d) := by
  refine Flow.append (Flow.each fun t ht => ?_) ?_
  · have ht := List.mem_range.1 ht
    simp [Flow, Fits, St.exec, St.reads, St.writes, E.shape, E.reads, h.lagMul, h.fsFlat, h.fs, nth, ht,
      Nat.le_of_lt ht,
      Nat.lt_succ_of_lt ht, put_eq_self, c.xs, c.us, c.fs, c.Vxx, c.Vx, c.Qxx, c.Qxu, c.Quu, c.Qx, c.Qu, c.K, c.k,
        c.xsTry, c.usTry, c.dx, c.FuTVxx, c.Quuk, c.VxxTmp, c.FxTVxx, c.fTVxx, c.lagMul, c.fsFlat, c.fsTry, c.tmpX]
  · simp [Flow, Fits, St.exec, St.reads, St.writes, E.shape, E.reads, h.lagMul, h.fsFlat, h.fs, nth, put_eq_self,
    c.xs, c.us, c.fs, c.Vxx, c.Vx, c.Qxx, c.Qxu, c.Quu, c.Qx, c.Qu, c.K, c.k, c.xsTry, c.usTry, c.dx, c.FuTVxx,
      c.Quuk, c.VxxTmp, c.FxTVxx, c.fTVxx, c.lagMul, c.fsFlat, c.fsTry, c.tmpX]

theorem flow_stopping (h : Like R d) (c : Cold S) : Flow R S (stopping d) := by
  refine Flow.each fun t ht => ?_
  have ht := List.mem_range.1 ht
  by_cases hn : d.nu t = 0
  · simp [hn, Flow]
  · simp [hn, Flow, Fits, St.exec, St.reads, St.writes, E.shape, E.reads, h.Qu, nth, ht, c.xs, c.us, c.fs, c.Vxx,
    c.Vx, c.Qxx, c.Qxu, c.Quu, c.Qx, c.Qu, c.K, c.k, c.xsTry, c.usTry, c.dx, c.FuTVxx, c.Quuk, c.VxxTmp, c.FxTVxx,
      c.fTVxx, c.lagMul, c.fsFlat, c.fsTry, c.tmpX]

theorem flow_expected (h : Like R d) (c : Cold S) : Flow R S (expectedDDP d) := by
  refine Flow.each fun t ht => ?_
  have ht := List.mem_range.1 ht
  by_cases hn : d.nu t = 0
  · simp [hn, Flow]
  · simp [hn, Flow, Fits, St.exec, St.reads, St.writes, E.shape, E.reads, h.Qu, h.k, h.Quuk, nth, ht, c.xs, c.us,
    c.fs, c.Vxx, c.Vx, c.Qxx, c.Qxu, c.Quu, c.Qx, c.Qu, c.K, c.k, c.xsTry, c.usTry, c.dx, c.FuTVxx, c.Quuk, c.VxxTmp,
      c.FxTVxx, c.fTVxx, c.lagMul, c.fsFlat, c.fsTry, c.tmpX]

theorem flow_expectedFDDP (hT : 1 ≤ d.T) (h : Like R d) (c : Cold S) (feas : Bool) :
    Flow R S (expectedFDDP d feas) := by
  have hd : R dx (d.T - 1) = some ⟨d.ndx, 1⟩ := h.dx _ (by omega)
  cases feas
  · refine Flow.append ?_ (Flow.each fun t ht => ?_)
    · simp [Flow, Fits, St.exec, St.reads, St.writes, E.shape, E.reads, h.xsTry, h.xs, hd, h.fTVxx, h.Vxx, h.fs, nth,
        put_eq_self, c.xs, c.us, c.fs, c.Vxx, c.Vx, c.Qxx, c.Qxu, c.Quu, c.Qx, c.Qu, c.K, c.k, c.xsTry, c.usTry,
          c.dx, c.FuTVxx, c.Quuk, c.VxxTmp, c.FxTVxx, c.fTVxx, c.lagMul, c.fsFlat, c.fsTry, c.tmpX]
    · have ht := List.mem_range.1 ht
      simp [Flow, Fits, St.exec, St.reads, St.writes, E.shape, E.reads, h.xsTry, h.xs, h.dx, h.fTVxx, h.Vxx, h.fs,
        nth, ht,
        Nat.le_of_lt ht, Nat.lt_succ_of_lt ht, put_eq_self, c.xs, c.us, c.fs, c.Vxx, c.Vx, c.Qxx, c.Qxu, c.Quu, c.Qx,
          c.Qu, c.K, c.k, c.xsTry, c.usTry, c.dx, c.FuTVxx, c.Quuk, c.VxxTmp, c.FxTVxx, c.fTVxx, c.lagMul, c.fsFlat,
            c.fsTry, c.tmpX]
  · simp [expectedFDDP, Flow]

theorem flow_updateExpected (h : Like R d) (c : Cold S) (feas : Bool) :
    Flow R S (updateExpected d feas) := by
  refine Flow.append ?_ (Flow.each fun t ht => Flow.append ?_ ?_)
  · cases feas <;> simp [Flow, Fits, St.exec, St.reads, St.writes, E.shape, E.reads, h.Vx, h.Vxx, h.fs, h.fTVxx, nth,
      put_eq_self, c.xs, c.us, c.fs, c.Vxx, c.Vx, c.Qxx, c.Qxu, c.Quu, c.Qx, c.Qu, c.K, c.k, c.xsTry, c.usTry, c.dx,
        c.FuTVxx, c.Quuk, c.VxxTmp, c.FxTVxx, c.fTVxx, c.lagMul, c.fsFlat, c.fsTry, c.tmpX]
  · have ht := List.mem_range.1 ht
    by_cases hn : d.nu t = 0
    · simp [hn, Flow]
    · simp [hn, Flow, Fits, St.exec, St.reads, St.writes, E.shape, E.reads, h.Qu, h.k, h.Quuk, nth, ht, c.xs, c.us,
      c.fs, c.Vxx, c.Vx, c.Qxx, c.Qxu, c.Quu, c.Qx, c.Qu, c.K, c.k, c.xsTry, c.usTry, c.dx, c.FuTVxx, c.Quuk,
        c.VxxTmp, c.FxTVxx, c.fTVxx, c.lagMul, c.fsFlat, c.fsTry, c.tmpX]
  · have ht := List.mem_range.1 ht
    cases feas <;> simp [Flow, Fits, St.exec, St.reads, St.writes, E.shape, E.reads, h.Vx, h.Vxx, h.fs, h.fTVxx, nth,
      ht,
      Nat.le_of_lt ht, Nat.lt_succ_of_lt ht, put_eq_self, c.xs, c.us, c.fs, c.Vxx, c.Vx, c.Qxx, c.Qxu, c.Quu, c.Qx,
        c.Qu, c.K, c.k, c.xsTry, c.usTry, c.dx, c.FuTVxx, c.Quuk, c.VxxTmp, c.FxTVxx, c.fTVxx, c.lagMul, c.fsFlat,
          c.fsTry, c.tmpX]

end

/-! ### FDDP -/
section
variable {d : Dims} {S : Arr × ℕ → Prop}

theorem flow_forwardFDDP (hT : 1 ≤ d.T) (c : Cold S) (closed : Bool) :
    Flow (sizeFDDP d) S (forwardFDDP d closed) := by
  have h := likeFDDP d
  have hd : sizeFDDP d dx (d.T - 1) = some ⟨d.ndx, 1⟩ := h.dx _ (by omega)
  have hx : sizeFDDP d xnext 0 = some ⟨d.nx, 1⟩ := rfl
  have hf : ∀ t, t < d.T → sizeFDDP d fsTry t = some ⟨d.ndx, 1⟩ := fun t ht => by
    simp [sizeFDDP, nth, Nat.le_of_lt ht, Nat.lt_succ_of_lt ht]
  unfold forwardFDDP
  rw [List.append_assoc, List.append_assoc]
  refine Flow.append' ?_ ?_
  · simp [Flow, Fits, St.exec, St.reads, St.writes, E.shape, E.reads, hx, put_eq_self]
  · refine (?_ : ∀ S' : Arr × ℕ → Prop, Cold S' → S' (xnext, 0) → Flow (sizeFDDP d) S' _) _ ?_ ?_
    rotate_left
    · exact ⟨fun t => Or.inl (c.xs t), fun t => Or.inl (c.us t), fun t => Or.inl (c.fs t), fun t => Or.inl (c.Vxx t),
      fun t => Or.inl (c.Vx t), fun t => Or.inl (c.Qxx t), fun t => Or.inl (c.Qxu t), fun t => Or.inl (c.Quu t),
        fun t => Or.inl (c.Qx t), fun t => Or.inl (c.Qu t), fun t => Or.inl (c.K t), fun t => Or.inl (c.k t),
          fun t => Or.inl (c.xsTry t), fun t => Or.inl (c.usTry t), fun t => Or.inl (c.dx t),
            fun t => Or.inl (c.FuTVxx t), fun t => Or.inl (c.Quuk t), fun t => Or.inl (c.VxxTmp t),
              fun t => Or.inl (c.FxTVxx t), fun t => Or.inl (c.fTVxx t), fun t => Or.inl (c.lagMul t),
                fun t => Or.inl (c.fsFlat t), fun t => Or.inl (c.fsTry t), fun t => Or.inl (c.tmpX t)⟩
    · exact Or.inr (by simp [wr, St.writes])
    clear c
    intro S' c hX
    refine Flow.append (Flow.each fun t ht => Flow.append (Flow.append (Flow.append ?_ ?_) ?_) ?_) (Flow.append ?_ ?_)
    · have ht := List.mem_range.1 ht
      cases closed <;> simp [Flow, Fits, St.exec, St.reads, St.writes, E.shape, E.reads, h.Vxx, h.Vx, h.lagMul, h.dx,
        h.fs,
        h.xsTry, hx, nth, ht, Nat.le_of_lt ht, Nat.lt_succ_of_lt ht, put_eq_self, c.xs, c.us, c.fs, c.Vxx, c.Vx,
          c.Qxx, c.Qxu, c.Quu, c.Qx, c.Qu, c.K, c.k, c.xsTry, c.usTry, c.dx, c.FuTVxx, c.Quuk, c.VxxTmp, c.FxTVxx,
            c.fTVxx, c.lagMul, c.fsFlat, c.fsTry, c.tmpX, hX]
    · have ht := List.mem_range.1 ht
      simp [Flow, Fits, St.exec, St.reads, St.writes, E.shape, E.reads, h.xs, h.xsTry, h.dx, nth, ht, Nat.le_of_lt ht,
        Nat.lt_succ_of_lt ht, put_eq_self, c.xs, c.us, c.fs, c.Vxx, c.Vx, c.Qxx, c.Qxu, c.Quu, c.Qx, c.Qu, c.K, c.k,
          c.xsTry, c.usTry, c.dx, c.FuTVxx, c.Quuk, c.VxxTmp, c.FxTVxx, c.fTVxx, c.lagMul, c.fsFlat, c.fsTry, c.tmpX,
            hX]
    · have ht := List.mem_range.1 ht
      by_cases hn : d.nu t = 0
      · simp [hn, Flow, Fits, St.exec, St.reads, St.writes, E.shape, E.reads, h.xsTry, nth, ht, Nat.le_of_lt ht,
          Nat.lt_succ_of_lt ht, c.xs, c.us, c.fs, c.Vxx, c.Vx, c.Qxx, c.Qxu, c.Quu, c.Qx, c.Qu, c.K, c.k, c.xsTry,
            c.usTry, c.dx, c.FuTVxx, c.Quuk, c.VxxTmp, c.FxTVxx, c.fTVxx, c.lagMul, c.fsFlat, c.fsTry, c.tmpX]
      · simp [hn, Flow, Fits, St.exec, St.reads, St.writes, E.shape, E.reads, h.us, h.usTry, h.k, h.K, h.dx, h.xsTry,
        nth,
          ht, Nat.le_of_lt ht, Nat.lt_succ_of_lt ht, put_eq_self, c.xs, c.us, c.fs, c.Vxx, c.Vx, c.Qxx, c.Qxu, c.Quu,
            c.Qx, c.Qu, c.K, c.k, c.xsTry, c.usTry, c.dx, c.FuTVxx, c.Quuk, c.VxxTmp, c.FxTVxx, c.fTVxx, c.lagMul,
              c.fsFlat, c.fsTry, c.tmpX]
    · have ht := List.mem_range.1 ht
      simp [Flow, Fits, St.exec, St.reads, St.writes, E.shape, E.reads, h.xsTry, hx, hf t ht, nth, ht,
        Nat.le_of_lt ht,
        Nat.lt_succ_of_lt ht, put_eq_self, c.xs, c.us, c.fs, c.Vxx, c.Vx, c.Qxx, c.Qxu, c.Quu, c.Qx, c.Qu, c.K, c.k,
          c.xsTry, c.usTry, c.dx, c.FuTVxx, c.Quuk, c.VxxTmp, c.FxTVxx, c.fTVxx, c.lagMul, c.fsFlat, c.fsTry, c.tmpX,
            hX]
    · cases closed <;> simp [Flow, Fits, St.exec, St.reads, St.writes, E.shape, E.reads, h.Vxx, h.Vx, h.lagMul, hd,
      h.fs,
        h.xsTry, hx, nth, put_eq_self, c.xs, c.us, c.fs, c.Vxx, c.Vx, c.Qxx, c.Qxu, c.Quu, c.Qx, c.Qu, c.K, c.k,
          c.xsTry, c.usTry, c.dx, c.FuTVxx, c.Quuk, c.VxxTmp, c.FxTVxx, c.fTVxx, c.lagMul, c.fsFlat, c.fsTry, c.tmpX,
            hX]
    · simp [Flow, Fits, St.exec, St.reads, St.writes, E.shape, E.reads, h.xsTry, nth, put_eq_self, c.xs, c.us, c.fs,
      c.Vxx, c.Vx, c.Qxx, c.Qxu, c.Quu, c.Qx, c.Qu, c.K, c.k, c.xsTry, c.usTry, c.dx, c.FuTVxx, c.Quuk, c.VxxTmp,
        c.FxTVxx, c.fTVxx, c.lagMul, c.fsFlat, c.fsTry, c.tmpX, hX]

end

/-! ### SQP -/
section
variable {d : Dims} {S : Arr × ℕ → Prop}

theorem flow_forwardSQP (c : Cold S) : Flow (sizeSQP d) S (forwardSQP d) := by
  have h := likeSQP d
  have hX : sizeSQP d tmpX 0 = some ⟨d.ndx, 1⟩ := rfl
  have hD : ∀ t, t < d.T → sizeSQP d du t = some ⟨d.nu t, 1⟩ := fun t ht => by simp [sizeSQP, nth, ht]
  have hx : ∀ t, sizeSQP d dx t = nth (d.T + 1) t d.ndx 1 := fun _ => rfl
  refine Flow.append (Flow.each fun t ht => ?_) ?_
  · have ht := List.mem_range.1 ht
    simp [Flow, Fits, St.exec, St.reads, St.writes, E.shape, E.reads, hX, hD t ht, hx, h.Vxx, h.Vx, h.lagMul, h.K,
      h.k, h.fs,
      nth, ht, Nat.le_of_lt ht, Nat.lt_succ_of_lt ht, put_eq_self, c.xs, c.us, c.fs, c.Vxx, c.Vx, c.Qxx, c.Qxu,
        c.Quu, c.Qx, c.Qu, c.K, c.k, c.xsTry, c.usTry, c.dx, c.FuTVxx, c.Quuk, c.VxxTmp, c.FxTVxx, c.fTVxx, c.lagMul,
          c.fsFlat, c.fsTry, c.tmpX]
  · simp [Flow, Fits, St.exec, St.reads, St.writes, E.shape, E.reads, hX, hx, h.Vxx, h.Vx, h.lagMul, h.fs, nth,
    put_eq_self,
      c.xs, c.us, c.fs, c.Vxx, c.Vx, c.Qxx, c.Qxu, c.Quu, c.Qx, c.Qu, c.K, c.k, c.xsTry, c.usTry, c.dx, c.FuTVxx,
        c.Quuk, c.VxxTmp, c.FxTVxx, c.fTVxx, c.lagMul, c.fsFlat, c.fsTry, c.tmpX]

theorem wr_forwardSQP (t : ℕ) (ht : t < d.T) : wr (forwardSQP d) (du, t) := by
  have h1 := wr_each (f := fun t =>
    [St.set tmpX 0 (E.add (E.ld dx t) (E.ld fs t)), St.set lagMul t (E.mul (E.ld Vxx t) (E.ld tmpX 0)),
      St.upd lagMul t (E.ld Vx t),
     St.set du t (E.mul (E.ld K t) (E.ld dx t)), St.upd du t (E.ld Arr.k t),
     St.set dx (t + 1) (E.ld fs (t + 1)), St.upd dx (t + 1) (E.mul (E.dat d.ndx (d.nu t)) (E.ld du t)),
     St.upd dx (t + 1) (E.mul (E.dat d.ndx d.ndx) (E.ld dx t)), St.read (E.ld dx t), St.read (E.ld du t)])
    (List.mem_range.2 ht) (p := (du, t)) (by simp [wr, St.writes])
  obtain ⟨s, hs, hp⟩ := h1
  exact ⟨s, List.mem_append.2 (Or.inl hs), hp⟩

theorem flow_kktSQP (c : Cold S) : Flow (sizeSQP d) S (kktSQP d) := by
  have h := likeSQP d
  have hX : sizeSQP d tmpX 0 = some ⟨d.ndx, 1⟩ := rfl
  have hU : ∀ t, t < d.T → sizeSQP d tmpU t = some ⟨d.nu t, 1⟩ := fun t ht => by simp [sizeSQP, nth, ht]
  refine Flow.append (Flow.each fun t ht => ?_) ?_
  · have ht := List.mem_range.1 ht
    simp [Flow, Fits, St.exec, St.reads, St.writes, E.shape, E.reads, hX, hU t ht, h.lagMul, h.fsFlat, h.fs, nth, ht,
      Nat.le_of_lt ht,
      Nat.lt_succ_of_lt ht, put_eq_self, c.xs, c.us, c.fs, c.Vxx, c.Vx, c.Qxx, c.Qxu, c.Quu, c.Qx, c.Qu, c.K, c.k,
        c.xsTry, c.usTry, c.dx, c.FuTVxx, c.Quuk, c.VxxTmp, c.FxTVxx, c.fTVxx, c.lagMul, c.fsFlat, c.fsTry, c.tmpX]
  · simp [Flow, Fits, St.exec, St.reads, St.writes, E.shape, E.reads, hX, h.lagMul, h.fsFlat, h.fs, nth, put_eq_self,
    c.xs, c.us, c.fs, c.Vxx, c.Vx, c.Qxx, c.Qxu, c.Quu, c.Qx, c.Qu, c.K, c.k, c.xsTry, c.usTry, c.dx, c.FuTVxx,
      c.Quuk, c.VxxTmp, c.FxTVxx, c.fTVxx, c.lagMul, c.fsFlat, c.fsTry, c.tmpX]

theorem flow_trySQP (hT : 1 ≤ d.T) (c : Cold S) (hdu : ∀ t, t < d.T → S (du, t)) :
    Flow (sizeSQP d) S (trySQP d) := by
  have h := likeSQP d
  have hD : ∀ t, t < d.T → sizeSQP d du t = some ⟨d.nu t, 1⟩ := fun t ht => by simp [sizeSQP, nth, ht]
  have hx : ∀ t, sizeSQP d dx t = nth (d.T + 1) t d.ndx 1 := fun _ => rfl
  have hf : ∀ t, t < d.T → sizeSQP d fsTry t = some ⟨d.ndx, 1⟩ := fun t ht => by
    simp [sizeSQP, nth, Nat.le_of_lt ht, Nat.lt_succ_of_lt ht]
  have hl := hf (d.T - 1) (by omega)
  refine Flow.append (Flow.each fun t ht => Flow.append (Flow.append (Flow.append ?_ ?_) ?_) ?_) ?_
  · have ht := List.mem_range.1 ht
    simp [Flow, Fits, St.exec, St.reads, St.writes, E.shape, E.reads, hx, h.xs, h.xsTry, nth, ht, Nat.le_of_lt ht,
      Nat.lt_succ_of_lt ht, c.xs, c.us, c.fs, c.Vxx, c.Vx, c.Qxx, c.Qxu, c.Quu, c.Qx, c.Qu, c.K, c.k, c.xsTry,
        c.usTry, c.dx, c.FuTVxx, c.Quuk, c.VxxTmp, c.FxTVxx, c.fTVxx, c.lagMul, c.fsFlat, c.fsTry, c.tmpX]
  · have ht := List.mem_range.1 ht
    by_cases hn : d.nu t = 0
    · simp [hn, Flow]
    · simp [hn, Flow, Fits, St.exec, St.reads, St.writes, E.shape, E.reads, hD t ht, hdu t ht, h.us, h.usTry, nth, ht,
        put_eq_self, c.xs, c.us, c.fs, c.Vxx, c.Vx, c.Qxx, c.Qxu, c.Quu, c.Qx, c.Qu, c.K, c.k, c.xsTry, c.usTry,
          c.dx, c.FuTVxx, c.Quuk, c.VxxTmp, c.FxTVxx, c.fTVxx, c.lagMul, c.fsFlat, c.fsTry, c.tmpX]
  · have ht := List.mem_range.1 ht
    simp [Flow, Fits, St.exec, St.reads, St.writes, E.shape, E.reads, h.xsTry, h.usTry, nth, ht, Nat.le_of_lt ht,
      Nat.lt_succ_of_lt ht, c.xs, c.us, c.fs, c.Vxx, c.Vx, c.Qxx, c.Qxu, c.Quu, c.Qx, c.Qu, c.K, c.k, c.xsTry,
        c.usTry, c.dx, c.FuTVxx, c.Quuk, c.VxxTmp, c.FxTVxx, c.fTVxx, c.lagMul, c.fsFlat, c.fsTry, c.tmpX]
  · have ht := List.mem_range.1 ht
    by_cases h0 : t = 0
    · simp [h0, Flow]
    · have hp := hf (t - 1) (by omega)
      simp [h0, Flow, Fits, St.exec, St.reads, St.writes, E.shape, E.reads, h.xsTry, hp, nth, ht, Nat.le_of_lt ht,
        Nat.lt_succ_of_lt ht, c.xs, c.us, c.fs, c.Vxx, c.Vx, c.Qxx, c.Qxu, c.Quu, c.Qx, c.Qu, c.K, c.k, c.xsTry,
          c.usTry, c.dx, c.FuTVxx, c.Quuk, c.VxxTmp, c.FxTVxx, c.fTVxx, c.lagMul, c.fsFlat, c.fsTry, c.tmpX]
  · simp [Flow, Fits, St.exec, St.reads, St.writes, E.shape, E.reads, h.xs, hx, h.xsTry, hl, nth, c.xs, c.us, c.fs,
    c.Vxx, c.Vx, c.Qxx, c.Qxu, c.Quu, c.Qx, c.Qu, c.K, c.k, c.xsTry, c.usTry, c.dx, c.FuTVxx, c.Quuk, c.VxxTmp,
      c.FxTVxx, c.fTVxx, c.lagMul, c.fsFlat, c.fsTry, c.tmpX]

end

end Mim.Shape
