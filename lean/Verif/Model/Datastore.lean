import Verif.Model.Basic

/-!
`defdap/utils.py:72-449`, the class `Datastore`: items with metadata, generators
that fill items when they are read, and derivatives by which a store lists and
converts the items of another store. Stores refer to each other (`add_derivative`),
so the model has a network of stores; the class attribute `_been_to` is one global.
-/

namespace DefDAP

/-- Metadata values (`utils.py:79-90`): only their equality and truth value matter
to the store. `obj` stands for values the store never inspects (`plot_params`). -/
inductive MVal where
  | none | bool (b : Bool) | int (i : Int) | str (s : String) | obj (n : Nat)
deriving DecidableEq, Repr

/-- Python truth value, used for `cropped`, `apply_mask` and `save`
(`utils.py:177,180,389,399`). An opaque object counts as true. -/
def MVal.truthy : MVal → Bool
  | .none => false
  | .bool b => b
  | .int i => i != 0
  | .str s => s != ""
  | .obj _ => true

/-- Python `dict` lookup: insertion ordered pairs (`utils.py:443-444`). -/
def dget {κ α : Type} [DecidableEq κ] : List (κ × α) → κ → Option α
  | [], _ => none
  | (k', v) :: t, k => if k' = k then some v else dget t k

/-- Python `d[k] = v`: an existing key keeps its place, a new one goes last (`utils.py:206`). -/
def dset {κ α : Type} [DecidableEq κ] : List (κ × α) → κ → α → List (κ × α)
  | [], k, v => [(k, v)]
  | (k', v') :: t, k, v => if k' = k then (k', v) :: t else (k', v') :: dset t k v

/-- Python `d.update(e)` (`utils.py:343, 423`). -/
def dupdate {κ α : Type} [DecidableEq κ] (d e : List (κ × α)) : List (κ × α) :=
  e.foldl (fun acc kv => dset acc kv.1 kv.2) d

/-- `list(d.keys())` (`utils.py:236`). -/
def dkeys {κ α : Type} (d : List (κ × α)) : List κ := d.map (·.1)

/-- One entry of `_store` (`utils.py:312-315`): `data` (`none` is Python's `None`)
and the metadata. -/
structure Item (D : Type) where
  data : Option D
  props : List (String × MVal)
deriving DecidableEq

/-- An entry of `_derivatives` (`utils.py:353-359`). `fid` names the function.
Simplification: `in_props` and `out_props` hold metadata names only, not `data`
(as in every use in the library). -/
structure Deriv where
  source : Nat
  fid : Nat
  inProps : List (String × MVal)
  outProps : List (String × MVal)
  passRef : Bool
deriving DecidableEq

/-- A `Datastore` (`utils.py:96-116`). Generators are named by a number; `cropFn`
and `maskFn` name the crop and mask function (`none`: the identity). -/
structure Store (D : Type) where
  items : List (String × Item D)
  gens : List (List String × Nat)
  derivs : List Deriv
  group : Nat
  cropFn : Option Nat
  maskFn : Option Nat

/-- `Datastore(group_id, crop_func, mask_func)` (`utils.py:110-116`). -/
def Store.new (D : Type) (group : Nat) (crop mask : Option Nat) : Store D :=
  { items := [], gens := [], derivs := [], group := group, cropFn := crop, maskFn := mask }

/-- Computations that read the network and the class attribute `_been_to` (`none` is Python's
`None`); a raised exception does not undo its change (`utils.py:104, 241-262`). -/
abbrev GM (α : Type) := Option (List Nat) → Except Err α × Option (List Nat)

/-- A value (`utils.py:241-262`). -/
def GM.pure {α : Type} (a : α) : GM α := fun b => (.ok a, b)

/-- A raised exception (`utils.py:161, 269`). -/
def GM.throw {α : Type} (e : Err) : GM α := fun b => (.error e, b)

/-- One computation after another (`utils.py:241-262`). -/
def GM.bind {α β : Type} (x : GM α) (f : α → GM β) : GM β := fun b =>
  match x b with
  | (.ok a, b') => f a b'
  | (.error e, b') => (.error e, b')

/-- Sequential loop collecting the concatenated results (`utils.py:236-239`). -/
def GM.collect {α : Type} (f : α → GM (List String)) : List α → GM (List String)
  | [] => GM.pure []
  | a :: t => GM.bind (f a) fun x => GM.bind (GM.collect f t) fun y => GM.pure (x ++ y)

/-- Sequential loop keeping the keys that pass a test (`utils.py:252-257`). -/
def GM.filter (f : String → GM Bool) : List String → GM (List String)
  | [] => GM.pure []
  | a :: t => GM.bind (f a) fun x => GM.bind (GM.filter f t) fun y =>
      GM.pure (if x then a :: y else y)

/-- The inner loop `utils.py:253-257`: all properties equal, stopping at the first
that is not. -/
def GM.all (f : String × MVal → GM Bool) : List (String × MVal) → GM Bool
  | [] => GM.pure true
  | p :: t => GM.bind (f p) fun x => if x then GM.all f t else GM.pure false

mutual

/-- `keys` (`utils.py:231-239`). -/
def keysF {D : Type} (net : Nat → Store D) : Nat → Nat → GM (List String)
  | 0, _ => GM.throw .fuel
  | n + 1, s =>
    GM.bind (GM.collect (fun d => lookupF net n s d) (net s).derivs) fun ks =>
      GM.pure (dkeys (net s).items ++ ks)

/-- `lookup_derivative_keys` (`utils.py:241-262`). The early return at 250-251 leaves
`_been_to` set even in the root call. -/
def lookupF {D : Type} (net : Nat → Store D) : Nat → Nat → Deriv → GM (List String)
  | 0, _, _ => GM.throw .fuel
  | n + 1, s, d => fun b =>
    let root := b.isNone
    let been := (net s).group :: b.getD []
    if (net d.source).group ∈ been then (.ok [], some been)
    else
      match (GM.bind (keysF net n d.source) fun ks =>
          GM.filter (fun k =>
            GM.all (fun p => GM.bind (metaF net n d.source k p.1 .none) fun m =>
              GM.pure (decide (m = p.2))) d.inProps) ks) (some been) with
      | (.ok ms, b') => (.ok ms, if root then none else b')
      | (.error e, b') => (.error e, b')

/-- `get_metadata` (`utils.py:425-449`) for a metadata name (not `data`). -/
def metaF {D : Type} (net : Nat → Store D) : Nat → Nat → String → String → MVal → GM MVal
  | 0, _, _, _, _ => GM.throw .fuel
  | n + 1, s, k, a, dflt =>
    match dget (net s).items k with
    | some it => GM.pure ((dget it.props a).getD dflt)
    | none => fun b =>
      match derMetaF net n s k a b with
      | (.error .keyError, b') => (.ok dflt, b')
      | r => r

/-- `_get_derived_item` (`utils.py:264-286`) for a metadata name. The `else` at 268
belongs to the `if`, so the loop either breaks or raises in its first round; with no
derivatives `derivative` is unbound at 270. -/
def derMetaF {D : Type} (net : Nat → Store D) : Nat → Nat → String → String → GM MVal
  | 0, _, _, _ => GM.throw .fuel
  | n + 1, s, k, a =>
    match (net s).derivs with
    | [] => GM.throw .unboundLocalError
    | d :: _ => GM.bind (lookupF net n s d) fun ks =>
      if k ∈ ks then
        match dget d.outProps a with
        | some v => GM.pure v
        | none => itemMetaF net n d.source k a
      else GM.throw .keyError

/-- `store[key, attr]` (`utils.py:139-183`) for a metadata name. -/
def itemMetaF {D : Type} (net : Nat → Store D) : Nat → Nat → String → String → GM MVal
  | 0, _, _, _ => GM.throw .fuel
  | n + 1, s, k, a =>
    match dget (net s).items k with
    | some it =>
      match dget it.props a with
      | some v => GM.pure v
      | none => GM.throw .keyError
    | none => GM.bind (keysF net n s) fun ks =>
      if k ∈ ks then derMetaF net n s k a else GM.throw .keyError

end

/-- A callable handed to a store (generator, derivative function, crop or mask
function) as a program: it can read items and metadata of any store, set items
(`hrdic.py:483,499`), add a derivative (`ebsd.py:933`, `hrdic.py:692`), and read and
write the state `W` outside the stores (crop distances, grain list). Exceptions of the
operations are passed to the continuation, so a program may catch them. -/
inductive Prog (D W : Type) where
  | ret (v : Option D)
  | fail (e : Err)
  | read (s : Nat) (key : String) (k : Except Err (Option D) → Prog D W)
  | getMeta (s : Nat) (key attr : String) (dflt : MVal) (k : Except Err MVal → Prog D W)
  | set (s : Nat) (key : String) (v : Option D) (k : Except Err Unit → Prog D W)
  | addDeriv (s : Nat) (d : Deriv) (k : Prog D W)
  | world (k : W → Prog D W)
  | setWorld (w : W) (k : Prog D W)

/-- The callables: generators with their keyword arguments, derivative functions on a
key (`pass_ref`) or on data, crop functions with the binning, mask functions. `iter`
is the sequence a value unpacks to (`none`: not a sequence), used at `utils.py:393,398`. -/
structure Env (D W : Type) where
  gen : Nat → List (String × MVal) → Prog D W
  fn : Nat → String ⊕ Option D → Prog D W
  crop : Nat → Option D → MVal → Prog D W
  mask : Nat → Option D → Prog D W
  iter : D → Option (List (Option D))

/-- The whole state: stores, `_been_to`, the state outside, and a log of the generator runs (a ghost
variable: the store and the key tuple the generator is registered for) (`utils.py:96-116`). -/
structure DState (D W : Type) where
  net : Nat → Store D
  been : Option (List Nat)
  world : W
  log : List (Nat × List String)

/-- Computations on the state; a raised exception does not undo changes (`utils.py:139-206,
294-406`). -/
abbrev DM (D W α : Type) := DState D W → Except Err α × DState D W

/-- A value (`utils.py:139-206`). -/
def DM.pure {D W α : Type} (a : α) : DM D W α := fun st => (.ok a, st)

/-- A raised exception (`utils.py:161, 203, 308`). -/
def DM.throw {D W α : Type} (e : Err) : DM D W α := fun st => (.error e, st)

/-- One computation after another (`utils.py:139-206`). -/
def DM.bind {D W α β : Type} (x : DM D W α) (f : α → DM D W β) : DM D W β := fun st =>
  match x st with
  | (.ok a, st') => f a st'
  | (.error e, st') => (.error e, st')

/-- A listing or metadata computation run on the state (`utils.py:231-286, 425-449`). -/
def DM.lift {D W α : Type} (f : (Nat → Store D) → GM α) : DM D W α := fun st =>
  match f st.net st.been with
  | (r, b) => (r, { st with been := b })

/-- Replace one store of the network (`utils.py:206, 312-315, 345, 367`). -/
def modStore {D W : Type} (st : DState D W) (s : Nat) (f : Store D → Store D) : DState D W :=
  { st with net := fun s' => if s' = s then f (st.net s) else st.net s' }

/-- Replace or append an entry of `_store` (`utils.py:206, 312-315`). -/
def putItem {D W : Type} (st : DState D W) (s : Nat) (key : String) (it : Item D) :
    DState D W :=
  modStore st s fun x => { x with items := dset x.items key it }

/-- `store[key] = val` (`utils.py:185-206`): unknown keys are rejected, derived keys end
in a `KeyError` at 206. -/
def setDataF {D W : Type} (n s : Nat) (key : String) (v : Option D) : DM D W Unit :=
  DM.bind (DM.lift fun net => keysF net n s) fun ks =>
    if key ∈ ks then fun st =>
      match dget (st.net s).items key with
      | some it => (.ok (), putItem st s key { it with data := v })
      | none => (.error .keyError, st)
    else DM.throw .valueError

/-- `store[key, attr] = val` for a metadata name (`utils.py:185-206`). -/
def setMetaF {D W : Type} (n s : Nat) (key attr : String) (m : MVal) : DM D W Unit :=
  DM.bind (DM.lift fun net => keysF net n s) fun ks =>
    if key ∈ ks then fun st =>
      match dget (st.net s).items key with
      | some it => (.ok (), putItem st s key { it with props := dset it.props attr m })
      | none => (.error .keyError, st)
    else DM.throw .valueError

/-- `add_derivative` (`utils.py:347-367`): replaces the entry with the same function,
otherwise appends. -/
def addDerivList (l : List Deriv) (d : Deriv) : List Deriv :=
  match l with
  | [] => [d]
  | d' :: t => if d'.fid = d.fid then d :: t else d' :: addDerivList t d

/-- `add_derivative` on the state (`utils.py:347-367`). -/
def addDerivF {D W : Type} (s : Nat) (d : Deriv) : DM D W Unit := fun st =>
  (.ok (), modStore st s fun x => { x with derivs := addDerivList x.derivs d })

/-- The storing loop of `generate` (`utils.py:398-402`). `acc` is `rtn_val`. -/
def storeLoop {D W : Type} (n s : Nat) (key : String) :
    List (String × Option D) → Option (Option D) → DM D W (Option (Option D))
  | [], acc => DM.pure acc
  | (k, v) :: t, acc =>
    DM.bind (DM.lift fun net => metaF net n s k "save" (.bool true)) fun sv =>
      DM.bind (if sv.truthy then setDataF n s k v else DM.pure ()) fun _ =>
        storeLoop n s key t (if k = key then some v else acc)

/-- The stored value, generated if it is `None` (`utils.py:166-174`). A
`DataGenerationError`, also one raised inside the generator, is swallowed (172). -/
def valueOrGen {D W : Type} (d : Option D) (x : DM D W (Option D)) : DM D W (Option D) :=
  match d with
  | some v => DM.pure (some v)
  | none => fun st =>
    match x st with
    | (.error .dataGenerationError, st') => (.ok none, st')
    | r => r

/-- Cropping of a map item (`utils.py:177-179`); `run` executes a callable. -/
def cropStep {D W : Type} (env : Env D W) (run : Prog D W → DM D W (Option D)) (s : Nat)
    (key : String) (val : Option D) : DM D W (Option D) :=
  DM.bind (DM.lift fun net => metaF net 1 s key "cropped" (.bool false)) fun cr =>
    if cr.truthy then DM.pure val
    else DM.bind (DM.lift fun net => metaF net 1 s key "binning" (.int 1)) fun bin =>
      fun st => match (st.net s).cropFn with
        | some c => run (env.crop c val bin) st
        | none => (.ok val, st)

/-- Masking of a map item (`utils.py:180-181`). -/
def maskStep {D W : Type} (env : Env D W) (run : Prog D W → DM D W (Option D)) (s : Nat)
    (key : String) (val : Option D) : DM D W (Option D) :=
  DM.bind (DM.lift fun net => metaF net 1 s key "apply_mask" (.bool true)) fun am =>
    if am.truthy then fun st =>
      match (st.net s).maskFn with
      | some c => run (env.mask c val) st
      | none => (.ok val, st)
    else DM.pure val

/-- The end of `store[key]` (`utils.py:176-183`). The key is in `_store`, so the metadata
calls need one step only. -/
def finishRead {D W : Type} (env : Env D W) (run : Prog D W → DM D W (Option D)) (s : Nat)
    (key : String) (val : Option D) : DM D W (Option D) :=
  DM.bind (DM.lift fun net => metaF net 1 s key "type" .none) fun ty =>
    if ty = .str "map" then
      DM.bind (cropStep env run s key val) fun val => maskStep env run s key val
    else DM.pure val

/-- Storing what a generator returned (`utils.py:388-403`). A value that is not a
sequence for several keys ends in a `TypeError` at 393. -/
def storeResult {D W : Type} (env : Env D W) (n s : Nat) (key : String) (keys : List String)
    (datas : Option D) : DM D W (Option D) :=
  if keys.length = 1 then
    DM.bind (DM.lift fun net => metaF net n s key "save" (.bool true)) fun sv =>
    DM.bind (if sv.truthy then setDataF n s key datas else DM.pure ()) fun _ =>
      DM.pure datas
  else
    match datas.bind env.iter with
    | none => DM.throw .typeError
    | some l =>
      if keys.length = l.length then
        DM.bind (storeLoop n s key (keys.zip l) none) fun r =>
          match r with
          | some v => DM.pure v
          | none => DM.throw .unboundLocalError
      else DM.throw .valueError

mutual

/-- `store[key]` (`utils.py:139-183`). -/
def getDataF {D W : Type} (env : Env D W) : Nat → Nat → String → DM D W (Option D)
  | 0, _, _ => DM.throw .fuel
  | n + 1, s, key => fun st =>
    match dget (st.net s).items key with
    | none =>
      DM.bind (DM.lift fun net => keysF net n s) (fun ks =>
        if key ∈ ks then derDataF env n s key else DM.throw .keyError) st
    | some it =>
      DM.bind (valueOrGen it.data (fun st => generateF env n s key [] st))
        (fun val => finishRead env (fun p st => runF env n p st) s key val) st

/-- `_get_derived_item(key, 'data')` (`utils.py:264-286`). -/
def derDataF {D W : Type} (env : Env D W) : Nat → Nat → String → DM D W (Option D)
  | 0, _, _ => DM.throw .fuel
  | n + 1, s, key => fun st =>
    match (st.net s).derivs with
    | [] => (.error .unboundLocalError, st)
    | d :: _ =>
      DM.bind (DM.lift fun net => lookupF net n s d) (fun ks =>
        if key ∈ ks then
          if d.passRef then runF env n (env.fn d.fid (.inl key))
          else DM.bind (getDataF env n d.source key) fun v =>
            runF env n (env.fn d.fid (.inr v))
        else DM.throw .keyError) st

/-- `generate(key, return_val=True, **kwargs)` (`utils.py:369-406`). -/
def generateF {D W : Type} (env : Env D W) :
    Nat → Nat → String → List (String × MVal) → DM D W (Option D)
  | 0, _, _, _ => DM.throw .fuel
  | n + 1, s, key, kw => fun st =>
    match (st.net s).gens.find? (fun g => decide (key ∈ g.1)) with
    | none => (.error .dataGenerationError, st)
    | some (keys, gid) =>
      DM.bind (runF env n (env.gen gid kw)) (fun datas => storeResult env n s key keys datas)
        { st with log := st.log ++ [(s, keys)] }

/-- Running a callable (`utils.py:179-181, 280-284, 387`). -/
def runF {D W : Type} (env : Env D W) : Nat → Prog D W → DM D W (Option D)
  | 0, _ => DM.throw .fuel
  | _ + 1, .ret v => DM.pure v
  | _ + 1, .fail e => DM.throw e
  | n + 1, .read s key k => fun st =>
    match getDataF env n s key st with
    | (r, st') => runF env n (k r) st'
  | n + 1, .getMeta s key attr dflt k => fun st =>
    match DM.lift (W := W) (fun net => metaF net n s key attr dflt) st with
    | (r, st') => runF env n (k r) st'
  | n + 1, .set s key v k => fun st =>
    match setDataF n s key v st with
    | (r, st') => runF env n (k r) st'
  | n + 1, .addDeriv s d k => fun st => runF env n k (addDerivF s d st).2
  | n + 1, .world k => fun st => runF env n (k st.world) st
  | n + 1, .setWorld w k => fun st => runF env n k { st with world := w }

end

/-- `add` (`utils.py:294-315`). -/
def addF {D W : Type} (n s : Nat) (key : String) (v : Option D)
    (kw : List (String × MVal)) : DM D W Unit :=
  DM.bind (DM.lift fun net => keysF net n s) fun ks =>
    if key ∈ ks then DM.throw .valueError
    else if "data" ∈ dkeys kw then DM.throw .valueError
    else fun st => (.ok (), putItem st s key { data := v, props := kw })

/-- `metadata` at position `i` (`utils.py:339-342`); `none` is an `IndexError`. -/
def metaAt (metas : Option (List (List (String × MVal)))) (i : Nat) :
    Option (List (String × MVal)) :=
  match metas with
  | none => some []
  | some l => l[i]?

/-- The loop of `add_generator` (`utils.py:338-344`). `i` is the position. The update
of the caller's own metadata dict (343) is not modelled. -/
def addGenLoop {D W : Type} (n s : Nat) (metas : Option (List (List (String × MVal))))
    (kw : List (String × MVal)) : List String → Nat → DM D W Unit
  | [], _ => DM.pure ()
  | k :: t, i =>
    match metaAt metas i with
    | none => DM.throw .indexError
    | some m =>
      DM.bind (addF n s k none (dupdate m kw)) fun _ => addGenLoop n s metas kw t (i + 1)

/-- `add_generator` (`utils.py:317-345`), with `keys` already a tuple. -/
def addGenF {D W : Type} (n s : Nat) (keys : List String) (gid : Nat)
    (metas : Option (List (List (String × MVal)))) (kw : List (String × MVal)) :
    DM D W Unit :=
  DM.bind (addGenLoop n s metas kw keys 0) fun _ => fun st =>
    (.ok (), modStore st s fun x => { x with gens := dset x.gens keys gid })

/-- `update(other)` with the default priority (`utils.py:408-423`), as used to take over
loaded data (`ebsd.py:170`, `hrdic.py:212`). The item dicts shared with `other` are not
modelled: the loaders drop `other`. -/
def updateF {D W : Type} (s : Nat) (items : List (String × Item D)) : DM D W Unit := fun st =>
  (.ok (), modStore st s fun x => { x with items := dupdate x.items items })

/-- The operations a user can apply to the stores, and changes of the state outside
(`utils.py:139-449`). -/
inductive DOp (D W : Type) where
  | add (s : Nat) (key : String) (v : Option D) (kw : List (String × MVal))
  | addGen (s : Nat) (keys : List String) (gid : Nat)
      (metas : Option (List (List (String × MVal)))) (kw : List (String × MVal))
  | addDeriv (s : Nat) (d : Deriv)
  | setData (s : Nat) (key : String) (v : Option D)
  | setMeta (s : Nat) (key attr : String) (m : MVal)
  | update (s : Nat) (items : List (String × Item D))
  | read (s : Nat) (key : String)
  | generate (s : Nat) (key : String) (kw : List (String × MVal))
  | getMeta (s : Nat) (key attr : String) (dflt : MVal)
  | list (s : Nat)
  | setWorld (w : W)
deriving DecidableEq

/-- Drop the value of a computation (`utils.py:139-449`). -/
def DM.void {D W α : Type} (x : DM D W α) : DM D W Unit := DM.bind x fun _ => DM.pure ()

/-- One operation (`utils.py:139-449`). -/
def stepF {D W : Type} (env : Env D W) (n : Nat) : DOp D W → DM D W Unit
  | .add s key v kw => addF n s key v kw
  | .addGen s keys gid metas kw => addGenF n s keys gid metas kw
  | .addDeriv s d => addDerivF s d
  | .setData s key v => setDataF n s key v
  | .setMeta s key attr m => setMetaF n s key attr m
  | .update s items => updateF s items
  | .read s key => DM.void (getDataF env n s key)
  | .generate s key kw => DM.void (generateF env n s key kw)
  | .getMeta s key attr dflt => DM.void (DM.lift fun net => metaF net n s key attr dflt)
  | .list s => DM.void (DM.lift fun net => keysF net n s)
  | .setWorld w => fun st => (.ok (), { st with world := w })

/-- A history of operations, each with its outcome. Exceptions are caught by the caller, who goes on
with the next operation (`utils.py:139-449`). -/
def runOps {D W : Type} (env : Env D W) (n : Nat) :
    List (DOp D W) → DState D W → List (DOp D W × Except Err Unit) × DState D W
  | [], st => ([], st)
  | op :: t, st =>
    match stepF env n op st with
    | (r, st') =>
      match runOps env n t st' with
      | (ev, st'') => ((op, r) :: ev, st'')

end DefDAP
