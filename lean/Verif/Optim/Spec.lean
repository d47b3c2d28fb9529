import Verif.Optim.Model

/-!
# Specification for C45 and C46
-/

namespace Verif.Optim
open Verif.Py

variable {P α : Type} [LinearOrder α]

/-- The indices are in the order of the values at them. -/
def Ascending (l : List α) (inds : List Nat) : Prop :=
  inds.Pairwise fun i j => ∀ a b, l[i]? = some a → l[j]? = some b → a ≤ b

/-- `np.argsort`: any permutation of the positions that sorts the values. -/
def IsArgsort (argsort : List α → List Nat) : Prop :=
  ∀ l, (argsort l).Perm (List.range l.length) ∧ Ascending l (argsort l)

/-- Distinct old and new positions such that each new value is lower than the old one with which
it is paired. -/
structure Matching (old new : List α) (oldInds newInds : List Nat) (ps : List (Nat × Nat)) :
    Prop where
  olds : (ps.map Prod.fst).Nodup
  news : (ps.map Prod.snd).Nodup
  mem : ∀ p ∈ ps, p.1 ∈ oldInds ∧ p.2 ∈ newInds
  lower : ∀ p ∈ ps, ∃ a b, new[p.2]? = some a ∧ old[p.1]? = some b ∧ a < b

/-- The documented arguments: for Nelder-Mead one point more than dimensions and no batches, for
CRS2 enough points for each batch. -/
def ValidArgs (c : Settings P α) (n : Nat) : Prop :=
  (c.method = "Nelder-Mead" ∧ c.batch ≤ 1 ∧ n = c.dim + 1) ∨
  (c.method = "CRS2" ∧ c.dim < n ∧ c.batch * c.dim ≤ n - 1)

/-- The proposals have the right number of points. -/
structure Geometry.Ok (g : Geometry P) (batch : Nat) : Prop where
  batch : ∀ it ps best, (g.batch it ps best).length = batch
  mutate : ∀ it ps best qs, (g.mutate it ps best qs).length = qs.length

/-- All that is assumed of the arguments and of the libraries. -/
structure Accepted (c : Settings P α) (n : Nat) : Prop where
  sort : IsArgsort c.argsort
  geo : c.geo.Ok c.batch
  dim : 0 < c.dim
  args : ValidArgs c n

/-- What holds before and after each iteration, with `n` points: each stored value is the value of
the stored point, calls are counted, stored points were evaluated, and no evaluated point is better
than all the stored ones. -/
structure Sound (c : Settings P α) (n : Nat) (pts : List (P × α)) (calls : Nat)
    (log : List (List P)) : Prop where
  len : pts.length = n
  value : ∀ e ∈ pts, e.2 = c.f e.1
  calls : calls = (log.map List.length).sum
  seen : ∀ e ∈ pts, ∃ b ∈ log, e.1 ∈ b
  kept : ∀ b ∈ log, ∀ p ∈ b, ∃ e ∈ pts, e.2 ≤ c.f p

end Verif.Optim
