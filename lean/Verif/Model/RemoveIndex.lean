import Verif.Model.Heap

/-! # Removing a data index (datastructures.py 912-924) -/

namespace Timeseria

/-- `for item in self: item.data_indexes.pop(data_index, None)` (916-917, 923-924): every item changes its own object of
the data indexes, which other items can share -/
def popIndexLoop (name : String) : Heap → List HItem → Heap
  | h, [] => h
  | h, x :: r => popIndexLoop name (h.storeIdx x.iA (fun i => i.erase name)) r

/-- `series.remove_data_index(data_index)` (912-917) -/
def HSeries.removeIndex (name : String) (h : Heap) (s : HSeries) : Heap × Outcome :=
  if s.refOk h then (popIndexLoop name h s.items, .ok ()) else (h, .error .typeError)

/-- `series.remove_data_loss()` (919-924) -/
def HSeries.removeLoss (h : Heap) (s : HSeries) : Heap × Outcome :=
  if s.refOk h then (popIndexLoop "data_loss" h s.items, .ok ()) else (h, .error .typeError)

end Timeseria
