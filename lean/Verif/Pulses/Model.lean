/-
Model of the pulse data module: `egenerator/data/modules/data/pulse_data.py`.
-/
import Verif.Py.Dict
import Mathlib.Algebra.Order.Field.Basic

namespace Verif.Pulses
open Verif.Py

/-! Charges and times are elements of an ordered field `K` (no rounding, no overflow of the int32
ids). An event is identified by its four header numbers, an element of `κ`. Labels are assumed to
have the default row index 0, 1, ... of pandas. -/

variable {κ K : Type} [DecidableEq κ] [Field K] [LinearOrder K]

/-- (event, string, dom) in an array of shape [size, 86, 60, 1]. -/
abbrev Cell := Nat × Nat × Nat

/-- A row of the pulse table: the event header (row[1:5]), string (row[6]), dom (row[7]),
time (row[10]) and charge (row[12]). -/
structure Row (κ K : Type) where
  event : κ
  string : Int
  dom : Int
  time : K
  charge : K

/-- A row of the time exclusion table. -/
structure TimeRow (κ K : Type) where
  event : κ
  string : Int
  dom : Int
  start : K
  stop : K

/-- A row of the DOM exclusion table. -/
structure DomRow (κ : Type) where
  event : κ
  string : Int
  dom : Int

/-- A row of `x_pulses`: charge, time and the third column if charge quantiles are added. -/
structure Pulse (K : Type) where
  charge : K
  time : K
  extra : Option K
  deriving DecidableEq

/-- A row of an array of ids. -/
structure Ids where
  event : Int
  string : Int
  dom : Int
  deriving DecidableEq

/-- The configuration of the module, pulse_data.py:41-196. `good` is `detector.bad_doms_mask`. -/
structure Config where
  quantiles : Bool
  domExclusionsExist : Bool
  timeExclusionsExist : Bool
  discard : Bool
  good : Nat → Nat → Bool

/-- Index `i` into an axis of length `n`, with Python's negative indices. -/
def pyIndex (n : Nat) (i : Int) : Option Nat :=
  if 0 ≤ i ∧ i < n then some i.toNat
  else if -n ≤ i ∧ i < 0 then some (i + n).toNat
  else none

/-- What the loop over pulses accumulates: DOM charges, (x_pulses, x_pulses_ids), and the time window
where `none` in the first component is inf and `none` in the second is -inf. -/
structure Acc (K : Type) where
  charge : Cell → K
  out : List (Pulse K × Ids)
  window : Nat → Option K × Option K

/-- `x_time_window[index]` after a pulse at time `t`, pulse_data.py:333-336 and 546-549. -/
def updateWindow (w : Option K × Option K) (t : K) : Option K × Option K :=
  (match w.1 with
    | none => some t
    | some lo => if t < lo then some t else some lo,
   match w.2 with
    | none => some t
    | some hi => if t > hi then some t else some hi)

/-- The body of the loop over pulses, pulse_data.py:312-336 and 525-549. -/
def addPulse (quantiles : Bool) (index : Nat) (string dom : Int) (charge time : K) (a : Acc K) :
    Except Err (Acc K) :=
  match pyIndex 86 (string - 1), pyIndex 60 (dom - 1) with
  | some s, some d =>
    .ok
      { charge := fun c => if c = (index, s, d) then a.charge c + charge else a.charge c
        out := a.out ++ [(⟨charge, time,
            if quantiles then some (a.charge (index, s, d) + charge) else none⟩,
          ⟨index, string - 1, dom - 1⟩)]
        window := fun e => if e = index then updateWindow (a.window e) time else a.window e }
  | _, _ => .error .indexError

/-- `event_dict`, pulse_data.py:258-262. -/
def eventDict (labels : List κ) : Dict κ Nat :=
  labels.zipIdx.foldl (fun d r => Dict.set d r.1 r.2) []

/-- The loop over the pulse table, pulse_data.py:302-336. `mem k` is what the uninitialised memory
of `np.empty` contains in row `k`, pulse_data.py:291-294. -/
def hdfPulses (quantiles : Bool) (events : Dict κ Nat) (mem : Nat → (K × K × K) × Ids) :
    List (Row κ K) → Nat → Acc K → Except Err (Acc K)
  | [], _, a => .ok a
  | row :: rows, k, a =>
    if row.dom > 60 then
      hdfPulses quantiles events mem rows (k + 1)
        { a with out := a.out ++ [(⟨(mem k).1.1, (mem k).1.2.1,
            if quantiles then some (mem k).1.2.2 else none⟩, (mem k).2)] }
    else
      match Dict.get? events row.event with
      | none => .error .keyError
      | some index =>
        match addPulse quantiles index row.string row.dom row.charge row.time a with
        | .error e => .error e
        | .ok a' => hdfPulses quantiles events mem rows (k + 1) a'

/-- The loop over the pulses of one DOM, pulse_data.py:524-549. -/
def frameDom (quantiles : Bool) (string dom : Int) : List (K × K) → Acc K → Except Err (Acc K)
  | [], a => .ok a
  | (charge, time) :: rest, a =>
    match addPulse quantiles 0 string dom charge time a with
    | .error e => .error e
    | .ok a' => frameDom quantiles string dom rest a'

/-- The loop over the pulse series map, pulse_data.py:511-549. -/
def framePulses (quantiles : Bool) :
    List ((Int × Int) × List (K × K)) → Acc K → Except Err (Acc K)
  | [], a => .ok a
  | ((string, dom), pulses) :: rest, a =>
    if dom > 60 then framePulses quantiles rest a
    else
      match frameDom quantiles string dom pulses a with
      | .error e => .error e
      | .ok a' => framePulses quantiles rest a'

/-- `flat_indices`, pulse_data.py:342-346. -/
def flatIndex (i : Ids) : Int := i.event * 86 * 60 + i.string * 60 + i.dom

/-- `x.flatten()[i]` for an array of shape [size, 86, 60, 1], pulse_data.py:349-352. -/
def flatGet {β : Type} (size : Nat) (x : Cell → β) (i : Int) : Except Err β :=
  match pyIndex (size * 86 * 60) i with
  | none => .error .indexError
  | some f => .ok (x (f / (86 * 60), f / 60 % 86, f % 60))

/-- Division of the cumulative charges by the DOM charges, pulse_data.py:339-352 and 555-568. -/
def divide (size : Nat) (charge : Cell → K) :
    List (Pulse K × Ids) → Except Err (List (Pulse K × Ids))
  | [] => .ok []
  | (p, i) :: rest =>
    match flatGet size charge (flatIndex i) with
    | .error e => .error e
    | .ok c =>
      match divide size charge rest with
      | .error e => .error e
      | .ok rest' => .ok (({ p with extra := p.extra.map (· / c) }, i) :: rest')

/-- Discarding the pulses of excluded DOMs, pulse_data.py:392-404 and 622-634. -/
def discardExcluded (size : Nat) (exclusions : Cell → Bool) :
    List (Pulse K × Ids) → Except Err (List (Pulse K × Ids))
  | [] => .ok []
  | (p, i) :: rest =>
    match flatGet size exclusions (flatIndex i) with
    | .error e => .error e
    | .ok m =>
      match discardExcluded size exclusions rest with
      | .error e => .error e
      | .ok rest' => .ok (if m then (p, i) :: rest' else rest')

/-- The loop over the time exclusions, pulse_data.py:357-373. -/
def hdfTimes (events : Dict κ Nat) (mem : Nat → (K × K) × Ids) :
    List (TimeRow κ K) → Nat → Except Err (List ((K × K) × Ids))
  | [], _ => .ok []
  | row :: rows, k =>
    if row.dom > 60 then
      match hdfTimes events mem rows (k + 1) with
      | .error e => .error e
      | .ok rest => .ok (mem k :: rest)
    else
      match Dict.get? events row.event with
      | none => .error .keyError
      | some index =>
        match hdfTimes events mem rows (k + 1) with
        | .error e => .error e
        | .ok rest => .ok (((row.start, row.stop), ⟨index, row.string - 1, row.dom - 1⟩) :: rest)

/-- The loop over the DOM exclusions, pulse_data.py:379-387. -/
def hdfExclusions (events : Dict κ Nat) :
    List (DomRow κ) → (Cell → Bool) → Except Err (Cell → Bool)
  | [], x => .ok x
  | row :: rows, x =>
    if row.dom > 60 then hdfExclusions events rows x
    else
      match Dict.get? events row.event with
      | none => .error .keyError
      | some index =>
        match pyIndex 86 (row.string - 1), pyIndex 60 (row.dom - 1) with
        | some s, some d =>
          hdfExclusions events rows (fun c => if c = (index, s, d) then false else x c)
        | _, _ => .error .indexError

/-- An hdf file; `none` for a key that does not exist. -/
structure HdfFile (κ K : Type) where
  labels : Option (List κ)
  pulses : Option (List (Row κ K))
  domExclusions : Option (List (DomRow κ))
  timeExclusions : Option (List (TimeRow κ K))

/-- The tensors returned by the module. -/
structure Data (K : Type) where
  domCharge : Cell → K
  domExclusions : Option (Cell → Bool)
  pulses : List (Pulse K × Ids)
  timeWindow : Nat → Option K × Option K
  timeExclusions : Option (List ((K × K) × Ids))

/-- The empty accumulator, pulse_data.py:264-266 and 291-300. -/
def Acc.init : Acc K := { charge := fun _ => 0, out := [], window := fun _ => (none, none) }

/-- The initial exclusions, pulse_data.py:268-273. -/
def initExclusions (cfg : Config) : Cell → Bool := fun c => cfg.good c.2.1 c.2.2

/-- `get_data_from_hdf`, pulse_data.py:198-420. A file without the pulses or labels is skipped
(`none`). `mem` and `tmem` are the contents of the uninitialised arrays. -/
def fromHdf (cfg : Config) (file : HdfFile κ K) (mem : Nat → (K × K × K) × Ids)
    (tmem : Nat → (K × K) × Ids) : Except Err (Option (Nat × Data K)) :=
  match file.pulses, file.labels with
  | some pulses, some labels =>
    let size := labels.length
    let events := eventDict labels
    -- line 276: `len(time_exclusions['Event'])` with `time_exclusions = None`
    if cfg.timeExclusionsExist = true ∧ file.timeExclusions.isNone = true then .error .typeError
    else
      match hdfPulses cfg.quantiles events mem pulses 0 Acc.init with
      | .error e => .error e
      | .ok a =>
        match (if cfg.quantiles then divide size a.charge a.out else .ok a.out) with
        | .error e => .error e
        | .ok out =>
          match (if cfg.timeExclusionsExist then
              (hdfTimes events tmem (file.timeExclusions.getD []) 0).map some else .ok none) with
          | .error e => .error e
          | .ok times =>
            match cfg.domExclusionsExist, file.domExclusions with
            | true, some rows =>
              match hdfExclusions events rows (initExclusions cfg) with
              | .error e => .error e
              | .ok x =>
                match (if cfg.discard then discardExcluded size x out else .ok out) with
                | .error e => .error e
                | .ok out' => .ok (some (size, ⟨a.charge, some x, out', a.window, times⟩))
            | true, none =>
              .ok (some (size, ⟨a.charge, some (initExclusions cfg), out, a.window, times⟩))
            | false, _ => .ok (some (size, ⟨a.charge, none, out, a.window, times⟩))
  | _, _ => .ok none

/-- A frame; `none` for a key that does not exist. Pulse series masks are already applied. -/
structure Frame (K : Type) where
  pulses : List ((Int × Int) × List (K × K))
  domExclusions : Option (List (Int × Int))

/-- The loop over the DOM exclusions, pulse_data.py:607-617. -/
def frameExclusions : List (Int × Int) → (Cell → Bool) → Except Err (Cell → Bool)
  | [], x => .ok x
  | (string, dom) :: rest, x =>
    if dom > 60 then frameExclusions rest x
    else
      match pyIndex 86 (string - 1), pyIndex 60 (dom - 1) with
      | some s, some d => frameExclusions rest (fun c => if c = (0, s, d) then false else x c)
      | _, _ => .error .indexError

/-- `get_data_from_frame`, pulse_data.py:422-650, for a module without time exclusions. If there is no
pulse, the array of ids has one axis and `x_pulses_ids[:, 0]` raises an IndexError. -/
def fromFrame (cfg : Config) (frame : Frame K) : Except Err (Nat × Data K) :=
  match framePulses cfg.quantiles frame.pulses Acc.init with
  | .error e => .error e
  | .ok a =>
    match (if cfg.quantiles then
        (if a.out.isEmpty then .error .indexError else divide 1 a.charge a.out) else .ok a.out) with
    | .error e => .error e
    | .ok out =>
      match cfg.domExclusionsExist, frame.domExclusions with
      | true, some rows =>
        match frameExclusions rows (initExclusions cfg) with
        | .error e => .error e
        | .ok x =>
          match (if cfg.discard then
              (if a.out.isEmpty then .error .indexError else discardExcluded 1 x out)
              else .ok out) with
          | .error e => .error e
          | .ok out' => .ok (1, ⟨a.charge, some x, out', a.window, none⟩)
      | true, none => .ok (1, ⟨a.charge, some (initExclusions cfg), out, a.window, none⟩)
      | false, _ => .ok (1, ⟨a.charge, none, out, a.window, none⟩)

end Verif.Pulses
