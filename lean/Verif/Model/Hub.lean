import Verif.Model.Labels
import Verif.Model.IO
import Verif.Model.Download

/-!
# Publishing a run and loading it again (`ranx/ranxhub.py` `save`, `Run.from_ranxhub`)

The run card is a YAML file with a section `run`, of which the entries `name` and `results` are modelled; everything
else in the card is `rest`. YAML, cbor2 and lz4 are an `Archive`: a reader that undoes the writer.
-/

namespace Ranx.Hub
open Py Files Rep

/-- a run card -/
structure Card (α ρ : Type*) where
  /-- `runcard["run"].get("name")` -/
  name : Option Str
  /-- `runcard["run"].get("results")` -/
  results : Option (Dict Str α)
  rest : ρ

/-- io.py:57-71 `save_lz4`, `load_lz4` on the content `{"metadata": …, "run": …}` -/
structure Archive (β α ρ : Type*) where
  dump : Card α ρ → Dict Str (Dict Str α) → List β
  load : List β → Except Err (Card α ρ × Dict Str (Dict Str α))
  load_dump : ∀ c d, load (dump c d) = .ok (c, d)

/-- what of a `Run` object matters here (run.py:66-70, 92-96) -/
structure HubRun (α ρ : Type*) where
  name : Option Str
  store : Store Str Str α
  meanScores : Dict Str α
  metadata : Option (Card α ρ)

variable {β α ρ : Type*}

/-- ranxhub.py:35-49 `save(run, runcard_path, path)`: the card afterwards and the bytes of the archive.
`run.to_dict()` keeps the order of the object (run.py:164-173), and `run.name` is not used. -/
def save (A : Archive β α ρ) (r : HubRun α ρ) (card : Card α ρ) : Except Err (Card α ρ × List β) :=
  match hubSave r.meanScores card.results r.store.data with
  | .error e => .error e
  | .ok (onDisk, inArchive, d) => .ok ({ card with results := onDisk }, A.dump { card with results := inArchive } d)

/-- run.py:374-381: the part of `Run.from_ranxhub` after `download` -/
def ofBytes [LE α] [Neg α] (A : Archive β α ρ) (S : ArgSort α) (bytes : List β) : Except Err (HubRun α ρ) :=
  match A.load bytes with
  | .error e => .error e
  | .ok (card, d) =>
    match Store.ofDict S d with
    | .error e => .error e
    | .ok st =>
      match card.name with
      | none => .error .keyError
      | some n => .ok ⟨some n, st, [], some card⟩

/-- run.py:362-381 `Run.from_ranxhub(id)`: the disk afterwards and the run; `none` if the call is stopped -/
def fromRanxhub [LE α] [Neg α] (A : Archive β α ρ) (S : ArgSort α) (a : Dl.Attempt β) (d : Dl.Disk β) :
    Dl.Disk β × Option (Except Err (HubRun α ρ)) :=
  ((Dl.download a d).1, (Dl.download a d).2.map (ofBytes A S))

end Ranx.Hub
