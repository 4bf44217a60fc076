import Verif.Model.Storage
/-!
A storage used over time: puts, gets and crashes in the middle of a put.
-/
namespace Timeseria

/-- What a crash of the process (or a full disk) after `k` characters leaves of the lines being written: storages.py
754-786 writes them straight into the destination, opened with `'w'`, with no temporary file and no renaming.
Simplification: what reaches the disk is a prefix of what was written. -/
def cutAt : ℕ → List Text → List Text
  | _, [] => []
  | k, l :: r => if k < l.length then (if k = 0 then [] else [l.take k]) else l :: cutAt (k - l.length) r

/-- A call on the storage: `put` (738-788), possibly interrupted after some characters, or `get` (164-735). -/
inductive StoreCall where
  | put (n : Notes) (s : TSeries) (overwrite : Bool) (crash : Option ℕ)
  | get

/-- The file after a call.  `get` opens it in reading mode (storages.py 220) and leaves it alone; an interrupted `put`
has emptied it (754) and written the first characters. -/
def storeStep (cd : Codec) (file : Option (List Text)) : StoreCall → Option (List Text)
  | .put n s o none => (csvPut cd n s o file).1
  | .put n s o (some k) => if file.isSome ∧ !o then file else some (cutAt k (putLines cd n s).1)
  | .get => file

/-- the file after a history of calls -/
def storeRun (cd : Codec) (file : Option (List Text)) (calls : List StoreCall) : Option (List Text) :=
  calls.foldl (storeStep cd) file

end Timeseria
