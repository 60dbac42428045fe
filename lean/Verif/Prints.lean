import Verif.Repr
import Verif.Declared
import Verif.Plugins
import Verif.Notebook
import Verif.Collections
import Verif.MixerParams
/-!
# Printing slots, plugins and equalisers

As in `Texts.lean` and `Repr.lean`, what is printed is given by the values it is made of.
-/

namespace PyFLP

/-- What `repr(plugin)` is made of. -/
inductive PluginText
  /-- class and address of the object: `_PluginBase` has no `__repr__` -/
  | object
  /-- name and vendor of a VST plugin -/
  | vst (name vendor : Option LV)
  /-- active page, mark and pages of a notebook -/
  | notebook (page : Option Int) (editable : Option Bool) (pages : Option (List Page))
  /-- class and attributes of other native plugins -/
  | model (cls : String) (attrs : List (String × Shown))

/-- What `repr(slot)` is made of. -/
structure SlotText where
  name : Option Value
  index : Option Value
  plugin : Option PluginText

/-- `type(self).__name__` for the native plugins that print themselves by `ModelReprMixin` (`plugin.py:718-1132`). -/
def PluginType.cls : PluginType → String
  | .base => "_PluginBase"
  | .vst => "VSTPlugin"
  | .booBass => "BooBass"
  | .fruitKick => "FruitKick"
  | .fruityBalance => "FruityBalance"
  | .fruityBloodOverdrive => "FruityBloodOverdrive"
  | .fruityCenter => "FruityCenter"
  | .fruityFastDist => "FruityFastDist"
  | .fruityNotebook2 => "FruityNotebook2"
  | .fruitySend => "FruitySend"
  | .fruitySoftClipper => "FruitySoftClipper"
  | .fruityStereoEnhancer => "FruityStereoEnhancer"
  | .plucked => "Plucked"
  | .soundgoodizer => "Soundgoodizer"

/-- The public names in the body of the class (`_models.py:125`), from the declarations of the program. -/
def publicNames (cls : String) : List String :=
  match Declared.reprs.find? fun d => d.cls == cls with
  | some d => d.names.map Prod.fst
  | none => []

namespace World

/-- `repr(plugin)`: `VSTPlugin.__repr__` (`plugin.py:519-520`) reads name and vendor; notebooks (`plugin.py:956-970`) and the other
native plugins are `ModelReprMixin`s. -/
def reprPlugin (ver : PyVer) (w : World) (p : PluginType) (u : Nat) : Py PluginText :=
  match p with
  | .base => .ok .object
  | .vst =>
    match w.vstGet u 54 "name" with
    | .error e => .error e
    | .ok name =>
      match w.vstGet u 56 "vendor" with
      | .error e => .error e
      | .ok vendor => .ok (.vst name vendor)
  | .fruityNotebook2 =>
    match notebookActive.read w u with
    | .error e => .error e
    | .ok page =>
      match notebookEditable.read w u with
      | .error e => .error e
      | .ok editable =>
        match notebookPages.read w u with
        | .error e => .error e
        | .ok pages => .ok (.notebook page editable pages)
  | p => (w.reprModel ver u p.cls (publicNames p.cls)).map (.model p.cls)

/-- `repr(slot)` (`mixer.py:323-324`): name, index and plugin, in this order. -/
def reprSlot (ver : PyVer) (w : World) (t : Nat) : World × Py SlotText :=
  let name := w.prop t 203
  let index := w.prop t 98
  match w.pluginOf t slotPlugins with
  | (w', none) => (w', .ok ⟨name, index, none⟩)
  | (w', some (p, u)) => (w', (w'.reprPlugin ver p u).map fun x => ⟨name, index, some x⟩)

end World

namespace ParamsObj

/-- The ids of frequency, gain and resonance of a band (`mixer.py:101-111`, `276-289`). -/
structure BandIds where
  freq : Int
  gain : Int
  reso : Int

/-- `InsertEQ.low`, `.mid` and `.high` (`mixer.py:276-289`, `101-111`). -/
def bands : List (String × BandIds) := [
  ("low", ⟨216, 208, 224⟩), ("mid", ⟨217, 209, 225⟩), ("high", ⟨218, 210, 226⟩)]

/-- What `repr(band)` is made of. -/
structure BandText where
  size : Int
  gain : Option LV
  freq : Option LV
  reso : Option LV

/-- `len(self._kw)` of the band that `_InsertEQProp.__get__` makes (`mixer.py:243-255`): one entry for each of the ids that occur. -/
def bandSize (d : List (Int × Nat)) (b : BandIds) : Nat :=
  ([b.freq, b.gain, b.reso].filter fun id => (dictGet id d).isSome).length

/-- `repr(insert.eq.low)` and so on: `ModelReprMixin.__repr__` (`_models.py:123-129`) on the names of `InsertEQBand` in the order of
its body, `size`, `gain`, `freq`, `reso` (`mixer.py:200-228`). -/
def reprBand (p : ParamsObj) (i : Nat) (b : BandIds) : Py BandText :=
  match p.own i with
  | .error e => .error e
  | .ok d =>
    match p.eqGet i b.gain with
    | .error e => .error e
    | .ok gain =>
      match p.eqGet i b.freq with
      | .error e => .error e
      | .ok freq =>
        match p.eqGet i b.reso with
        | .error e => .error e
        | .ok reso => .ok ⟨12 * bandSize d b, gain, freq, reso⟩

/-- `repr(insert.eq)`: the first public name in the body of `InsertEQ` is `size`, a property that reads `self._kw["param"]`, where there is
only `params` (`mixer.py:268-274`); `getattr(self, "size", None)` (`_models.py:126`) catches `AttributeError`s only. -/
def reprEq (p : ParamsObj) (i : Nat) : Py (List (String × BandText)) :=
  match p.own i with
  | .error e => .error e
  | .ok _ =>
    match getattrOr (.error .keyError) with
    | .error e => .error e
    | .ok _ =>
      match bands.mapM fun b => (p.reprBand i b.2).map fun x => (b.1, x) with
      | .error e => .error e
      | .ok l => .ok l

end ParamsObj

end PyFLP
