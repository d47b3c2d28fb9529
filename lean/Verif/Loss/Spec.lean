import Verif.Loss.Model

/-!
# Specification for C35 to C38 and C67
-/

namespace Verif.Loss

/-- The sum of all entries of the sorted terms. -/
def Sorted.total {B : ℕ} (s : Sorted B) : ℝ := s.scalar + ∑ b, s.event b + ∑ c, s.dom c

/-- Two tensors over DOMs agree where the mask is not zero. -/
def Agree {B : ℕ} (m : Cell B → ℝ) (x y : Option (Cell B → ℝ)) : Prop :=
  match x, y with
  | some x, some y => ∀ c, m c ≠ 0 → x c = y c
  | none, none => True
  | _, _ => False

/-- Two batches with predictions are equal except for measured charges and predictions on DOMs that
the mask excludes. -/
structure SameValid {B P : ℕ} (m : Cell B → ℝ) (d d' : Batch B P) (r r' : Results B P) : Prop where
  mask : d.mask = some m
  mask' : d'.mask = some m
  charge : d'.charge = d.charge
  quantile : d'.quantile = d.quantile
  ids : d'.ids = d.ids
  time : d'.timeExclusions = d.timeExclusions
  domCharge : ∀ c, m c ≠ 0 → d.domCharge c = d'.domCharge c
  domCharges : Agree m r.domCharges r'.domCharges
  domLogPdf : Agree m r.domLogPdf r'.domLogPdf
  domVariance : Agree m r.domVariance r'.domVariance
  pulsePdf : r'.pulsePdf = r.pulsePdf
  quantilePdf : r'.quantilePdf = r.quantilePdf
  exclusionSum : r'.exclusionSum = r.exclusionSum

/-- The DOM is not excluded. -/
def Batch.Valid {B P : ℕ} (d : Batch B P) (c : Cell B) : Prop :=
  ∀ m, d.mask = some m → m c ≠ 0

/-- The mask consists of zeros and ones. -/
def Batch.ProperMask {B P : ℕ} (d : Batch B P) : Prop :=
  ∀ m, d.mask = some m → ∀ c, m c = 0 ∨ m c = 1

/-- How far `v` is outside of the interval. -/
noncomputable def outside (low high v : ℝ) : ℝ := max 0 (max (low - v) (v - high))

end Verif.Loss
