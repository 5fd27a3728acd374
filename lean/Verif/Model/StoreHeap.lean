import Verif.Model.Datastore
import Mathlib.Logic.Function.Basic

/-! Model of the objects behind data stores: which dictionaries and items two stores share after
`update` (`utils.py:408-423`), and of access by attributes (`utils.py:208-221`). Stores without
derivatives and generators; `Model/Datastore.lean` has these but no sharing. -/

namespace DefDAP

/-- The dictionary `_store` of each store, the item of each name in a dictionary, and the content of
the items (`utils.py:111, 312-315, 418-423`). -/
structure StoreHeap (D : Type) where
  dictOf : Nat → Nat
  dicts : Nat → List (String × Nat)
  vals : Nat → Item D
  next : Nat

/-- New stores have dictionaries of their own (`utils.py:111`). -/
def StoreHeap.new {D : Type} : StoreHeap D := ⟨fun s => s, fun _ => [], fun _ => ⟨none, []⟩, 0⟩

/-- The dictionary of a store (`utils.py:111`). -/
def StoreHeap.dict {D : Type} (h : StoreHeap D) (s : Nat) : List (String × Nat) := h.dicts (h.dictOf s)

/-- `keys` (`utils.py:231-239`). -/
def StoreHeap.keys {D : Type} (h : StoreHeap D) (s : Nat) : List String := dkeys (h.dict s)

/-- The item of a name (`utils.py:159-166`). -/
def StoreHeap.item? {D : Type} (h : StoreHeap D) (s : Nat) (key : String) : Option (Item D) :=
  (dget (h.dict s) key).map h.vals

/-- `__getitem__` of the data (`utils.py:152-166`). -/
def StoreHeap.get {D : Type} (h : StoreHeap D) (s : Nat) (key : String) : Except Err (Option D) :=
  match h.item? s key with
  | some it => .ok it.data
  | none => .error .keyError

/-- `add` (`utils.py:294-315`): a new item. -/
def StoreHeap.add {D : Type} (h : StoreHeap D) (s : Nat) (key : String) (it : Item D) :
    Except Err (StoreHeap D) :=
  if key ∈ h.keys s then .error .valueError
  else if "data" ∈ dkeys it.props then .error .valueError
  else .ok { h with
    dicts := Function.update h.dicts (h.dictOf s) (dset (h.dict s) key h.next)
    vals := Function.update h.vals h.next it
    next := h.next + 1 }

/-- `__setitem__` of the data (`utils.py:185-206`): the item object is changed. -/
def StoreHeap.set {D : Type} (h : StoreHeap D) (s : Nat) (key : String) (v : Option D) :
    Except Err (StoreHeap D) :=
  match dget (h.dict s) key with
  | some i => .ok { h with vals := Function.update h.vals i { h.vals i with data := v } }
  | none => .error .valueError

/-- `update` (`utils.py:418-423`): with priority `'self'` the dictionary of the other store is changed
and then used by both. -/
def StoreHeap.update {D : Type} (h : StoreHeap D) (s o : Nat) (prioritySelf : Bool) : StoreHeap D :=
  if prioritySelf then
    { h with
      dicts := Function.update h.dicts (h.dictOf o) (dupdate (h.dict o) (h.dict s))
      dictOf := Function.update h.dictOf s (h.dictOf o) }
  else { h with dicts := Function.update h.dicts (h.dictOf s) (dupdate (h.dict s) (h.dict o)) }

/-- Calls (`utils.py:185-206, 294-315, 408-423`). -/
inductive HeapOp (D : Type) where
  | add (s : Nat) (key : String) (it : Item D)
  | set (s : Nat) (key : String) (v : Option D)
  | update (s o : Nat) (prioritySelf : Bool)

/-- One call; a failing one changes nothing (`utils.py:185-206, 294-315, 408-423`). -/
def heapStep {D : Type} (h : StoreHeap D) : HeapOp D → StoreHeap D
  | .add s key it => match h.add s key it with | .ok h' => h' | .error _ => h
  | .set s key v => match h.set s key v with | .ok h' => h' | .error _ => h
  | .update s o p => h.update s o p

/-! ### Attributes -/

/-- The slots (`utils.py:96-103`). -/
def storeSlots : List String :=
  ["_store", "_generators", "_derivatives", "_group_id", "_crop_func", "_mask_func"]

/-- Other names of the class (`utils.py:104-449`) that do not begin with two underscores. -/
def storeMethods : List String :=
  ["_been_to", "generate_id", "keys", "lookup_derivative_keys", "_get_derived_item", "add",
   "add_generator", "add_derivative", "generate", "update", "get_metadata"]

/-- What reading an attribute gives (`utils.py:208-212`). -/
inductive AttrVal (D : Type) where
  | own (name : String)
  | data (v : Option D)

/-- `store.name` (`utils.py:208-212`): `__getattr__` is called only for names the class does not have. -/
def StoreHeap.attr {D : Type} (h : StoreHeap D) (s : Nat) (name : String) : Except Err (AttrVal D) :=
  if name ∈ storeSlots ∨ name ∈ storeMethods then .ok (.own name)
  else (h.get s name).map .data

/-- `store.name = v` (`utils.py:214-221`) for names other than slots. -/
def StoreHeap.setAttr {D : Type} (h : StoreHeap D) (s : Nat) (name : String) (v : Option D) :
    Except Err (StoreHeap D) := h.set s name v

/-- `hasattr(store, name)`: Python turns an `AttributeError` into `False`; other exceptions, also
the `KeyError` of `__getitem__`, get through (`utils.py:139-183, 208-212`). -/
def StoreHeap.hasAttr {D : Type} (h : StoreHeap D) (s : Nat) (name : String) : Except Err Bool :=
  match h.attr s name with
  | .ok _ => .ok true
  | .error .attributeError => .ok false
  | .error e => .error e

end DefDAP
