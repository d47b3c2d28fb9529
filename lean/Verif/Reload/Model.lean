/-
Model of what components keep besides their tracked parts - the untracked data - when they are configured,
saved and loaded: the sources (`egenerator/model/source/base.py`, `egenerator/model/multi_source/base.py`),
which rebuild it, and the loss modules (`egenerator/loss/*.py`), which do not. The tracked parts are those
of `Verif.Component`.
-/
import Verif.Component.Object

namespace Verif.Reload
open Verif.Py Verif.Component

/-- The Python values that the code itself mentions (model/source/base.py:183-184): `None` and strings. -/
structure Vals (V : Type) where
  none : V
  str : String → V

/-- The untracked data of one component. A source keeps its name and the names of its parameters
(model/source/base.py:206-212; the other entries follow from them), a multi source in addition which base
source each source uses (model/multi_source/base.py:230-237). A default loss module keeps the loss function
(loss/default.py:87-88), a prior its parameters (loss/snowstorm.py:104-131); after loading these entries do
not exist. -/
inductive Own (V F : Type) where
  | nothing
  | source (name : V) (names : List String)
  | multi (name : V) (names : List String) (sources : Dict String String)
  | loss (f : Option F)
  | prior (f : Option F)
  | losses

/-- The untracked data of a component and of its sub components (manager/component.py:512-513). -/
inductive Tree (V F : Type) where
  | node (own : Own V F) (subs : List (String × Tree V F))

/-- The classes of components, by how they use untracked data. `build` is `_build_architecture` of the
derived source class (model/source/base.py:192), or `get_parameters_and_mapping` of the derived multi source
class (model/multi_source/base.py:212-213); both are taken to
depend on their arguments only, the variables that they create are not modelled. `methods` are the methods
of the loss module as far as `config['loss_function_name']` finds one, `make` are the parameters of the
prior. Every other class has an arbitrary `_configure` and no untracked data. -/
inductive Kind (V D F : Type) where
  | other (hook : Hook V D)
  | source (build : V → V → Except Err (List String))
  | multi (build : V → List (String × Tree V F) → Except Err (List String × Dict String String))
  | loss (methods : V → Except Err F)
  | prior (make : V → Except Err F)
  | losses

section
variable {V D F : Type}

/-- `Configuration(class_string=.., settings=.., mutable_settings=..)`, e.g.
model/source/base.py:217-220. -/
def newConf (E : Env) (cls : String) (settings mutable : Dict String V) : Except Err (Conf V) :=
  Conf.init E none ⟨E.version, E.sha, cls, [], settings, mutable, [], [], []⟩

/-- The signature of a method, e.g. model/source/base.py:110: unknown arguments and missing ones raise. -/
def signature (kwargs : Dict String (Arg V D)) (required optional : List String) : Bool :=
  kwargs.keys.all (fun k => (required ++ optional).contains k) && required.all (fun k => kwargs.has k)

/-- The components of a dictionary argument such as `base_sources` (model/multi_source/base.py:215). Entries that are none are not modelled. -/
def itemComps : List (String × Item V D) → Option (List (String × Comp V D))
  | [] => some []
  | (n, .comp c) :: rest => (itemComps rest).map ((n, c) :: ·)
  | (_, .val _) :: _ => none

/-- The components of a list argument with the names `loss_modules_0000`, .. (loss/multi_loss.py:70-72). -/
def listComps (i : Nat) : List (Item V D) → Option (List (String × Comp V D))
  | [] => some []
  | .comp c :: rest => (listComps (i + 1) rest).map ((listName "loss_modules" i, c) :: ·)
  | .val _ :: _ => none

/-- The method `_configure` of the class `cls`, with the untracked data that it writes, the configuration,
and the sub components. `trees n` is the untracked data of the component that is passed under the name
`n`. The data are empty, except for the classes `other`. -/
def call (E : Env) (C : Containers V) (P : Vals V) (cls : String) (trees : String → Tree V F)
    [DecidableEq V] (kwargs : Dict String (Arg V D)) :
    Kind V D F → Except Err (Own V F × Conf V × MaybeDict (Dict String D) × MaybeDict (Dict String (Comp V D)))
  | .other hook =>
    match hook kwargs with
    | .error e => .error e
    | .ok (conf, data, subs) => .ok (.nothing, conf, data, subs)
  -- model/source/base.py:110, 183-222; a `data_trafo` that is no component is not recorded as a sub
  -- component, so that manager/component.py:680 raises
  | .source build =>
    if !signature kwargs ["config", "data_trafo"] ["name"] then .error .typeError
    else
      match (kwargs.get? "config").bind (Arg.val? C), kwargs.get? "data_trafo",
        ((kwargs.get? "name").getD (.plain P.none)).val? C with
      | some config, some (.comp trafo), some name =>
        let name := if name = P.none then P.str "egenerator.model.source.base" else name
        match build config name with
        | .error e => .error e
        | .ok names =>
          match newConf E cls [("config", config)] [("name", name)] with
          | .error e => .error e
          | .ok conf => .ok (.source name names, conf, .dict [], .dict [("data_trafo", trafo)])
      | _, _, _ => .error .keyError
  -- model/multi_source/base.py:141-143, 203-245 (without the check of new variables, 219-227); a
  -- `data_trafo` that is no component as above
  | .multi build =>
    if !signature kwargs ["base_sources", "config"] ["data_trafo", "name"] then .error .typeError
    else
      match (kwargs.get? "config").bind (Arg.val? C), kwargs.get? "base_sources",
        ((kwargs.get? "name").getD (.plain P.none)).val? C with
      | some config, some (.dict items), some name =>
        match itemComps items with
        | none => .error .typeError
        | some base =>
          let name := if name = P.none then P.str "egenerator.model.multi_source.base" else name
          match build config (base.map fun nc => (nc.1, trees nc.1)) with
          | .error e => .error e
          | .ok (names, sources) =>
            match newConf E cls [("config", config)] [("name", name)] with
            | .error e => .error e
            | .ok conf =>
              match (kwargs.get? "data_trafo").getD (.plain P.none) with
              | .comp trafo =>
                .ok (.multi name names sources, conf, .dict [], .dict (Dict.set base "data_trafo" trafo))
              | other =>
                if other.val? C = some P.none then
                  .ok (.multi name names sources, conf, .dict [], .dict base)
                else .error .keyError
      | _, _, _ => .error .typeError
  -- loss/default.py:41, 87-95
  | .loss methods =>
    if !signature kwargs ["config"] [] then .error .typeError
    else
      match (kwargs.get? "config").bind (Arg.val? C) with
      | none => .error .typeError
      | some config =>
        match methods config with
        | .error e => .error e
        | .ok f =>
          match newConf E cls [("config", config)] [] with
          | .error e => .error e
          | .ok conf => .ok (.loss (some f), conf, .dict [], .dict [])
  -- loss/snowstorm.py:58, 104-138
  | .prior make =>
    if !signature kwargs ["config"] [] then .error .typeError
    else
      match (kwargs.get? "config").bind (Arg.val? C) with
      | none => .error .typeError
      | some config =>
        match make config with
        | .error e => .error e
        | .ok f =>
          match newConf E cls [("config", config)] [] with
          | .error e => .error e
          | .ok conf => .ok (.prior (some f), conf, .dict [], .dict [])
  -- loss/multi_loss.py:30, 70-79
  | .losses =>
    if !signature kwargs ["loss_modules"] [] then .error .typeError
    else
      match kwargs.get? "loss_modules" with
      | some (.list items) =>
        match listComps 0 items with
        | none => .error .keyError
        | some subs =>
          match newConf E cls [] [] with
          | .error e => .error e
          | .ok conf => .ok (.losses, conf, .dict [], .dict subs)
      | _ => .error .typeError

/-- The hook that `BaseComponent.configure` calls, and that of models (model/base.py:112-136): its result
without the untracked data. -/
def hook (E : Env) (C : Containers V) (P : Vals V) (cls : String) (trees : String → Tree V F)
    [DecidableEq V] (kind : Kind V D F) : Hook V D := fun kwargs =>
  match call E C P cls trees kwargs kind with
  | .error e => .error e
  | .ok (_, conf, data, subs) => .ok (conf, data, subs)

/-- The arguments with which the `_load` of a source calls `_configure` again: the settings and the sub
components (model/base.py:564-566). -/
def sourceArgs (config : Dict String V) (subs : Dict String (Comp V D)) : Dict String (Arg V D) :=
  Dict.update (config.map fun kv => (kv.1, Arg.plain kv.2)) (subs.map fun kv => (kv.1, Arg.comp kv.2))

/-- Those of a multi source (model/multi_source/base.py:576-587). -/
def multiArgs (config : Dict String V) (subs : Dict String (Comp V D)) (trafo : Comp V D) :
    Dict String (Arg V D) :=
  ("data_trafo", .comp trafo) ::
    ("base_sources", .dict ((subs.filter fun nc => nc.1 ≠ "data_trafo").map fun nc =>
      (nc.1, Item.comp nc.2))) ::
    config.map fun kv => (kv.1, Arg.plain kv.2)

/-- The untracked data of a component after its method `_load` was called (manager/component.py:997): a
source rebuilds it (model/base.py:553-566, 605-620), so does a multi source (model/multi_source/base.py:
565-587), where the data transformation is looked up first (577). The loss modules have no such method, so that
nothing is there (manager/component.py:500-513). The configuration and the sub components are not changed
by this, so that the checks behind it (model/base.py:573-578) pass. A source of which nothing was loaded does
not occur. -/
def reloadOwn (E : Env) (C : Containers V) (P : Vals V) [DecidableEq V] (cls : String)
    (conf : Option (Conf V)) (subs : List (String × Comp V D)) (trees : List (String × Tree V F)) :
    Kind V D F → Except Err (Own V F)
  | .other _ => .ok .nothing
  | .source build =>
    match call E C P cls (fun n => (Dict.get? trees n).getD (.node .nothing []))
      (sourceArgs ((conf.map Conf.config).getD []) subs) (.source build) with
    | .error e => .error e
    | .ok (own, _) => .ok own
  | .multi build =>
    match Dict.get? subs "data_trafo" with
    | none => .error .keyError
    | some trafo =>
      match call E C P cls (fun n => (Dict.get? trees n).getD (.node .nothing []))
        (multiArgs ((conf.map Conf.config).getD []) subs trafo) (.multi build) with
      | .error e => .error e
      | .ok (own, _) => .ok own
  | .loss _ => .ok (.loss none)
  | .prior _ => .ok (.prior none)
  | .losses => .ok .losses

mutual
/-- The untracked data of a component that was loaded with `load` (manager/component.py:939-960, 997): the
sub components come first. `kinds` maps class strings to classes. -/
def reload (E : Env) (C : Containers V) (P : Vals V) [DecidableEq V] (kinds : String → Kind V D F) :
    Comp V D → Except Err (Tree V F)
  | ⟨cls, _, conf, _, subs, _⟩ =>
    match reloadAll E C P kinds subs with
    | .error e => .error e
    | .ok trees =>
      match reloadOwn E C P cls conf subs trees (kinds cls) with
      | .error e => .error e
      | .ok own => .ok (.node own trees)

/-- The loop over the sub components (manager/component.py:941-960). -/
def reloadAll (E : Env) (C : Containers V) (P : Vals V) [DecidableEq V] (kinds : String → Kind V D F) :
    List (String × Comp V D) → Except Err (List (String × Tree V F))
  | [] => .ok []
  | (n, c) :: rest =>
    match reload E C P kinds c with
    | .error e => .error e
    | .ok t =>
      match reloadAll E C P kinds rest with
      | .error e => .error e
      | .ok ts => .ok ((n, t) :: ts)
end

/-- `load` of a component with the untracked data it has afterwards: `_load` is called when all else went
well, and the component is marked as configured after it (manager/component.py:997-999). Simplification: the
sub components run their `_load` when they are loaded, here when all of them are. -/
def loadTree (E : Env) (C : Containers V) (P : Vals V) [DecidableEq V] (kinds : String → Kind V D F)
    (L : LoadEnv V D) (fs : FS V D) (depth : Nat) (cls : String) (parent : Path) (name : String) :
    Except Err (Comp V D × Tree V F) :=
  match load L fs depth (Comp.fresh cls) parent name [] with
  | ⟨_, _, some e⟩ => .error e
  | ⟨c, _, none⟩ =>
    match reload E C P kinds c with
    | .error e => .error e
    | .ok t => .ok (c, t)

end

/-! ## Loss modules -/

section
variable {V B R : Type}

mutual
/-- `get_loss` of a loss module on the batch `x`: the default loss module checks its options (loss/default.py:
166-170), and calls its loss function (172), which is `None` if there is none (22-28); a prior looks its
parameters up (loss/snowstorm.py:247; that the parameters of the batch are looked up before, 240-242, is not
modelled); a multi loss calls its modules in their order (loss/multi_loss.py:
147-157), what it makes of the results (158-178) is `combine`. What the functions compute is in
`Verif.Loss`. Other components have no such method. -/
def getLoss (combine : List R → R) (reduce sort : Bool) (x : B) :
    Tree V (Bool → Bool → B → Except Err R) → Except Err R
  | .node (.loss f) _ =>
    if reduce && sort then .error .valueError
    else
      match f with
      | none => .error .typeError
      | some f => f reduce sort x
  | .node (.prior f) _ =>
    match f with
    | none => .error .keyError
    | some f => f reduce sort x
  | .node .losses subs =>
    match getLosses combine reduce sort x subs with
    | .error e => .error e
    | .ok rs => .ok (combine rs)
  | .node _ _ => .error .attributeError

/-- The loop of the multi loss (loss/multi_loss.py:147-157). -/
def getLosses (combine : List R → R) (reduce sort : Bool) (x : B) :
    List (String × Tree V (Bool → Bool → B → Except Err R)) → Except Err (List R)
  | [] => .ok []
  | (_, t) :: rest =>
    match getLoss combine reduce sort x t with
    | .error e => .error e
    | .ok r =>
      match getLosses combine reduce sort x rest with
      | .error e => .error e
      | .ok rs => .ok (r :: rs)
end

end
end Verif.Reload
