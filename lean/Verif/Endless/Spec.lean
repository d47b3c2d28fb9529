/-
Specification for C133 to C135.
-/
import Verif.Endless.Model

namespace Verif.Endless

variable {E : Type}

/-- An infinite run: some process acts in every step. -/
def Run (c : Cfg E) (run : Nat → St E) : Prop := run 0 = init c ∧ ∀ t, Step c (run t) (run (t + 1))

/-- These files are enough for one pass: one and the additional files, and as many events as the repetitions
ask for (the square root of the number of further repetitions times the size of a batch). -/
def Enough (c : Cfg E) (fs : List (List E)) : Prop :=
  c.numAdd + 1 ≤ fs.length ∧ (c.reps - 1) * c.batchSize ^ 2 ≤ fs.flatten.length ^ 2

/-- These files are used in one pass: they are enough, and fewer of them are not. -/
def Pass (c : Cfg E) (fs : List (List E)) : Prop :=
  fs ≠ [] ∧ Enough c fs ∧ ∀ gs, gs ≠ [] → gs <+: fs → gs ≠ fs → ¬ Enough c gs

/-- The events of one pass: those of its files, once per repetition, shuffled each time if wanted. -/
def Serves (c : Cfg E) (fs : List (List E)) (out : List E) : Prop :=
  ∃ rounds : List (List E), out = rounds.flatten ∧ rounds.length = c.reps ∧
    ∀ r ∈ rounds, if c.shuffle then r.Perm fs.flatten else r = fs.flatten

/-- Files that do not exist or have no data are skipped. -/
def File.skipped : File E → Prop
  | .missing => True
  | .nothing => True
  | _ => False

/-- The sizes are positive, `choice` returns files of the list, loaded files have events, every job draws again
and again a file that is not skipped, and one of the jobs never draws a file that cannot be read. -/
structure Feeds (c : Cfg E) : Prop where
  batch : 0 < c.batchSize
  reps : 0 < c.reps
  fileCap : 0 < c.fileCap
  batchCap : 0 < c.batchCap
  draws : ∀ i k, c.draw i k < c.files.length
  events : ∀ d, File.events d ∈ c.files → d ≠ []
  skips : ∀ i < c.jobs, ∀ k, ∃ n, ∀ f, c.files[c.draw i (k + n)]? = some f → ¬ f.skipped
  alive : ∃ j < c.jobs, ∀ k, c.files[c.draw j k]? ≠ some .broken

end Verif.Endless
