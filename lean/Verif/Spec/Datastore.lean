import Verif.Model.Datastore

/-!
What a data store should hold after a history, read off the operations and whether
each was accepted. Only the operations' arguments are used, not the store's workings.
-/

namespace DefDAP.Spec

variable {D W : Type}

/-- The operation was accepted. -/
def accepted : Except Err Unit → Bool
  | .ok _ => true
  | .error _ => false

/-- The data last written to item `k` of store `s` (`none`: never added). The most recent
event comes first. -/
def lastData (s : Nat) (k : String) :
    List (DOp D W × Except Err Unit) → Option (Option D)
  | [] => none
  | (op, r) :: before =>
    if accepted r then
      match op with
      | .add s' k' v _ => if s' = s ∧ k' = k then some v else lastData s k before
      | .setData s' k' v => if s' = s ∧ k' = k then some v else lastData s k before
      | .update s' items =>
        if s' = s then ((dget items.reverse k).map (·.data)).or (lastData s k before)
        else lastData s k before
      | _ => lastData s k before
    else lastData s k before

/-- The metadata `a` last given to item `k` of store `s`. -/
def lastMeta (s : Nat) (k a : String) :
    List (DOp D W × Except Err Unit) → Option MVal
  | [] => none
  | (op, r) :: before =>
    if accepted r then
      match op with
      | .add s' k' _ kw => if s' = s ∧ k' = k then dget kw a else lastMeta s k a before
      | .update s' items =>
        if s' = s then
          match dget items.reverse k with
          | some it => dget it.props a
          | none => lastMeta s k a before
        else lastMeta s k a before
      | .setMeta s' k' a' m => if s' = s ∧ k' = k ∧ a' = a then some m else lastMeta s k a before
      | _ => lastMeta s k a before
    else lastMeta s k a before

/-- The keys added to store `s`, in order of addition; most recent event first. -/
def addedKeys (s : Nat) : List (DOp D W × Except Err Unit) → List String
  | [] => []
  | (op, r) :: before =>
    if accepted r then
      match op with
      | .add s' k' _ _ => if s' = s then addedKeys s before ++ [k'] else addedKeys s before
      | .addGen s' ks _ _ _ => if s' = s then addedKeys s before ++ ks else addedKeys s before
      | .update s' items =>
        if s' = s then (dkeys items).foldl (fun ks k => if k ∈ ks then ks else ks ++ [k])
          (addedKeys s before)
        else addedKeys s before
      | _ => addedKeys s before
    else addedKeys s before

/-- The item has the wanted metadata values (`none` where it has no such metadata). -/
def matchesProps {D : Type} (it : Item D) (want : List (String × MVal)) : Bool :=
  want.all fun p => decide ((dget it.props p.1).getD .none = p.2)

/-- The names of the items held by a store itself that have the wanted metadata. -/
def matching {D : Type} (items : List (String × Item D)) (want : List (String × MVal)) :
    List String :=
  (dkeys items).filter fun k => match dget items k with
    | some it => matchesProps it want
    | none => false

end DefDAP.Spec
