import Verif.Host.Abi
import Verif.Wasm.Sem

/-!
Model of the host state seen by a contract (`/repo/clar2wasm/src/initialize.rs`, `linker.rs`): the
datastore with its nested transactions, the token ledgers, the sender / caller / block stacks, and
the imported functions that use them.

The clarity crate (`GlobalContext`, `ClarityDatabase`, `RollbackWrapper`) is not part of `/repo`;
what is modelled of it, from its documented behaviour, is: `begin` / `begin_read_only` open a nested
transaction, `commit` merges it into the enclosing one, `roll_back` discards it (here: every level
keeps the whole state as seen from that level, so that commit drops the saved state and roll back
restores it); a database read inside `at-block` sees the state of that block; writes check that the
value is admitted by the declared type. Not modelled: cost and memory accounting (`add_memory`,
`runtime_cost`), locked STX, post-conditions (asset maps), and the type annotation of errors (every
`Err(..)` is the error outcome of the call).
-/

namespace Host
open Wasm Spec Classical

/-- A fungible token: declared maximum, supply, balances (clarity crate `create_fungible_token`,
`get_ft_supply`, `get_ft_balance`). -/
structure Ft where
  cap : Option Nat
  supply : Nat
  bal : Principal → Nat

/-- A non-fungible token: type of its assets and their owners. -/
structure Nft where
  key : Ty
  owner : Value → Option Principal

/-- A data variable. -/
structure DataVar where
  ty : Ty
  val : Value

/-- A data map. -/
structure DataMap where
  key : Ty
  val : Ty
  entry : Value → Option Value

/-- The datastore. Everything a contract declares is found by contract and name. -/
structure Db where
  ft : ContractId → Name → Option Ft
  nft : ContractId → Name → Option Nft
  var : ContractId → Name → Option DataVar
  map : ContractId → Name → Option DataMap
  stx : Principal → Nat
  liquid : Nat

/-- Events (initialize.rs 137-312). -/
inductive Event
  | print (c : ContractId) (v : Value)
  | stxTransfer (s r : Principal) (n : Nat) (memo : List Byte)
  | stxBurn (s : Principal) (n : Nat)
  | ftTransfer (c : ContractId) (t : Name) (s r : Principal) (n : Nat)
  | ftMint (c : ContractId) (t : Name) (r : Principal) (n : Nat)
  | ftBurn (c : ContractId) (t : Name) (s : Principal) (n : Nat)
  | nftTransfer (c : ContractId) (t : Name) (s r : Principal) (v : Value)
  | nftMint (c : ContractId) (t : Name) (r : Principal) (v : Value)
  | nftBurn (c : ContractId) (t : Name) (s : Principal) (v : Value)

/-- What a nested transaction sees: datastore, events so far, read-only flag. -/
structure Level where
  db : Db
  events : List Event
  readOnly : Bool

/-- initialize.rs 14-34: `ClarityWasmContext` together with the state of its `GlobalContext`. -/
structure World where
  contract : ContractId
  /-- contract initialisation (`contract_context_mut` is available) -/
  init : Bool
  sender : Option Principal
  caller : Option Principal
  senderStack : List Principal
  callerStack : List Principal
  bhhStack : List (List Byte)
  /-- the chain tip reads refer to -/
  tip : List Byte
  /-- clarity crate `query_pending_data`: reads see the current transaction -/
  pending : Bool
  /-- the states of the known blocks -/
  history : List Byte → Option Db
  cur : Level
  saved : List Level

namespace World

/-- initialize.rs 85-90: `push_sender`. -/
def pushSender (w : World) (p : Principal) : World :=
  match w.sender with
  | some c => { w with senderStack := c :: w.senderStack, sender := some p }
  | none => { w with sender := some p }

/-- initialize.rs 92-99: `pop_sender`. -/
def popSender (w : World) : Option World :=
  match w.sender with
  | none => none
  | some _ => some { w with sender := w.senderStack.head?, senderStack := w.senderStack.tail }

/-- initialize.rs 101-106: `push_caller`. -/
def pushCaller (w : World) (p : Principal) : World :=
  match w.caller with
  | some c => { w with callerStack := c :: w.callerStack, caller := some p }
  | none => { w with caller := some p }

/-- initialize.rs 108-115: `pop_caller`. -/
def popCaller (w : World) : Option World :=
  match w.caller with
  | none => none
  | some _ => some { w with caller := w.callerStack.head?, callerStack := w.callerStack.tail }

/-- clarity crate `GlobalContext::begin`. -/
def begin_ (w : World) : World := { w with saved := w.cur :: w.saved }

/-- clarity crate `GlobalContext::begin_read_only`. -/
def beginReadOnly (w : World) : World :=
  { w with saved := w.cur :: w.saved, cur := { w.cur with readOnly := true } }

/-- clarity crate `GlobalContext::commit`. -/
def commit (w : World) : Option World :=
  match w.saved with
  | [] => none
  | s :: ss => some { w with saved := ss, cur := { w.cur with readOnly := s.readOnly } }

/-- clarity crate `GlobalContext::roll_back`. -/
def rollBack (w : World) : Option World :=
  match w.saved with
  | [] => none
  | s :: ss => some { w with saved := ss, cur := s }

/-- clarity crate `ClarityDatabase::set_block_hash`: returns the previous tip. -/
def setBlockHash (w : World) (bhh : List Byte) (pending : Bool) : Option (World × List Byte) :=
  if (w.history bhh).isSome then some ({ w with tip := bhh, pending := pending }, w.tip) else none

/-- What database reads see. -/
def view (w : World) : Db :=
  if w.pending then w.cur.db else (w.history w.tip).getD w.cur.db

/-- Write the datastore. -/
def setDb (w : World) (db : Db) : World := { w with cur := { w.cur with db := db } }

/-- initialize.rs 146-150: `push_to_event_batch`. -/
def pushEvent (w : World) (e : Event) : World :=
  { w with cur := { w.cur with events := w.cur.events ++ [e] } }

/-- The contract as a principal. -/
def self (w : World) : Principal := .contract w.contract

end World

/-- Update a two-argument table. -/
noncomputable def upd₂ {α β γ : Type} (f : α → β → Option γ) (a : α) (b : β) (x : γ) : α → β → Option γ :=
  fun a' b' => if a' = a ∧ b' = b then some x else f a' b'

/-- Update a function. -/
noncomputable def upd {α β : Type} (f : α → β) (a : α) (x : β) : α → β :=
  fun a' => if a' = a then x else f a'

/-- Change the host state. -/
def withHost (g : Store World) (w : World) : Store World := { g with host := w }

/-- Change the memory. -/
def withMem (g : Store World) (m : Mem) : Store World := { g with mem := m }

/-- `((hi as u128) << 64) | ((lo as u64) as u128)`, e.g. linker.rs 1660. -/
def amountOf (lo hi : BitVec 64) : Nat := hi.toNat * 2 ^ 64 + lo.toNat

/-- wasm_utils.rs 1157-1185: `read_bytes_from_wasm`, `read_identifier_from_wasm`. The `i32` offset
and length are used as `usize`. That the bytes are UTF-8 is left out: every use looks the name up or
checks `ClarityName`. -/
def readIdent (m : Mem) (off len : BitVec 32) : Option Name := memRead m off.toNat len.toNat

/-- `read_identifier_from_wasm` followed by `ClarityName::try_from`, e.g. linker.rs 1654-1657. -/
def readClarityName (m : Mem) (off len : BitVec 32) : Option Name := do
  let n ← readIdent m off len
  if clarityName (n.map BitVec.toNat) then some n else none

/-- `read_from_wasm(.., PrincipalType, ..)` and `value_as_principal`, e.g. linker.rs 1662-1671. -/
def readPrin (m : Mem) (off len : BitVec 32) : Option Principal :=
  match readFromWasm .principal m off.toNat len.toNat with
  | some (.principal p) => some p
  | _ => none

/-- Reading a key, value or asset: in-memory types are passed by the address of their offset and
length (`is_in_memory_type`, `read_indirect_offset_and_length`, `read_from_wasm`),
e.g. linker.rs 2096-2110. -/
def readArg (ty : Ty) (m : Mem) (off len : BitVec 32) : Option Value :=
  if isInMemoryType ty then
    match readIndirectOffsetAndLength m off.toNat with
    | some (o, l) => readFromWasm ty m o l
    | none => none
  else readFromWasm ty m off.toNat len.toNat

/-- `(ok true)` of type `(response bool uint)`: `(1i32, 1i32, 0i64, 0i64)`. -/
def okTrue : List Val := [.i32 1#32, .i32 1#32, .i64 0#64, .i64 0#64]

/-- `(1i32, 132, 0i64, 0i64)`: what the non-fungible token functions return on success,
linker.rs 2280, 2408, 2580. -/
def okNft : List Val := [.i32 1#32, .i32 132#32, .i64 0#64, .i64 0#64]

/-- `(err uN)` of type `(response bool uint)`: `(0i32, 0i32, code as i64, 0i64)`. -/
def errUint (code : Nat) : List Val := [.i32 0#32, .i32 0#32, .i64 (BitVec.ofNat 64 code), .i64 0#64]

/-- Replace a fungible token of the current contract. -/
noncomputable def setFt (g : Store World) (nm : Name) (t : Ft) : Store World :=
  withHost g (g.host.setDb { g.host.cur.db with
    ft := upd₂ g.host.cur.db.ft g.host.contract nm t })

/-- Replace a non-fungible token of the current contract. -/
noncomputable def setNft (g : Store World) (nm : Name) (t : Nft) : Store World :=
  withHost g (g.host.setDb { g.host.cur.db with
    nft := upd₂ g.host.cur.db.nft g.host.contract nm t })

/-- Emit an event. -/
def emit (g : Store World) (e : Event) : Store World := withHost g (g.host.pushEvent e)

/-- clarity crate `checked_increase_token_supply`: the new supply must fit 128 bits and not exceed
the maximum. -/
def supplyOk (t : Ft) (n : Nat) : Prop :=
  t.supply + n < 2 ^ 128 ∧ ∀ c, t.cap = some c → t.supply + n ≤ c

/-- linker.rs 1757-1878: `ft_mint`, after its arguments have been read. -/
noncomputable def ftMint (g : Store World) (nm : Name) (n : Nat) (to_ : Principal) : HRes World :=
  if n = 0 then .ret (errUint 1) g
  else match g.host.view.ft g.host.contract nm with
  | none => .err g
  | some t =>
    if supplyOk t n then
      if t.bal to_ + n < 2 ^ 128 then
        .ret okTrue (emit (setFt g nm { t with supply := t.supply + n,
                                               bal := upd t.bal to_ (t.bal to_ + n) })
          (.ftMint g.host.contract nm to_ n))
      else .err (setFt g nm { t with supply := t.supply + n })
    else .err g

/-- linker.rs 1629-1755: `ft_burn`. -/
noncomputable def ftBurn (g : Store World) (nm : Name) (n : Nat) (from_ : Principal) : HRes World :=
  if n = 0 then .ret (errUint 1) g
  else match g.host.view.ft g.host.contract nm with
  | none => .err g
  | some t =>
    if n > t.bal from_ then .ret (errUint 1) g
    else if n > t.supply then .err g
    else .ret okTrue (emit (setFt g nm { t with supply := t.supply - n,
                                                bal := upd t.bal from_ (t.bal from_ - n) })
          (.ftBurn g.host.contract nm from_ n))

/-- linker.rs 1880-2055: `ft_transfer`. -/
noncomputable def ftTransfer (g : Store World) (nm : Name) (n : Nat) (from_ to_ : Principal) :
    HRes World :=
  if n = 0 then .ret (errUint 3) g
  else if from_ = to_ then .ret (errUint 2) g
  else match g.host.view.ft g.host.contract nm with
  | none => .err g
  | some t =>
    if t.bal from_ < n then .ret (errUint 1) g
    else if t.bal to_ + n < 2 ^ 128 then
      .ret okTrue (emit (setFt g nm { t with
          bal := upd (upd t.bal from_ (t.bal from_ - n)) to_ (t.bal to_ + n) })
        (.ftTransfer g.host.contract nm from_ to_ n))
    else .err g

/-- Both halves of a 128-bit number, low first. -/
def pair64 (n : Nat) : List Val := encU n

/-- linker.rs 1521-1560: `ft_get_supply`. -/
def ftGetSupply (g : Store World) (nm : Name) : HRes World :=
  match g.host.view.ft g.host.contract nm with
  | none => .err g
  | some t => .ret (pair64 t.supply) g

/-- linker.rs 1562-1627: `ft_get_balance`. -/
def ftGetBalance (g : Store World) (nm : Name) (p : Principal) : HRes World :=
  match g.host.view.ft g.host.contract nm with
  | none => .err g
  | some t => .ret (pair64 (t.bal p)) g

/-- linker.rs 1156-1203: `stx_get_balance`, when nothing is locked. -/
def stxGetBalance (g : Store World) (p : Principal) : HRes World := .ret (pair64 (g.host.view.stx p)) g

/-- linker.rs 211-277: `define_ft`. `supply_lo as u128` sign-extends the low half. -/
noncomputable def defineFt (g : Store World) (nm : Name) (ind : BitVec 32) (lo hi : BitVec 64) : HRes World :=
  if g.host.init then
    let cap : Option Nat :=
      if ind = 1#32 then some ((hi.signExtend 128 <<< 64) ||| lo.signExtend 128).toNat else none
    let bal := match g.host.cur.db.ft g.host.contract nm with
      | some t => t.bal
      | none => fun _ => 0
    .ret [] (setFt g nm ⟨cap, 0, bal⟩)
  else .err g

/-- linker.rs 1381-1519: `stx_transfer`. -/
noncomputable def stxTransfer (g : Store World) (n : Nat) (from_ to_ : Principal)
    (memo : List Byte) : HRes World :=
  if n = 0 then .ret (errUint 3) g
  else if from_ = to_ then .ret (errUint 2) g
  else if some from_ ≠ g.host.sender then .ret (errUint 4) g
  else
    let db := g.host.cur.db
    let bal := g.host.view.stx
    if bal from_ < n then .ret (errUint 1) g
    else if bal to_ + n < 2 ^ 128 then
      .ret okTrue (emit (withHost g (g.host.setDb { db with
          stx := upd (upd db.stx from_ (bal from_ - n)) to_ (bal to_ + n) }))
        (.stxTransfer from_ to_ n memo))
    else .err g

/-- linker.rs 1287-1378: `stx_burn`. -/
noncomputable def stxBurn (g : Store World) (n : Nat) (from_ : Principal) : HRes World :=
  if n = 0 then .ret (errUint 3) g
  else if some from_ ≠ g.host.sender then .ret (errUint 4) g
  else
    let db := g.host.cur.db
    let bal := g.host.view.stx
    if bal from_ < n then .ret (errUint 1) g
    else if g.host.view.liquid < n then .err g
    else .ret okTrue (emit (withHost g (g.host.setDb { db with
          stx := upd db.stx from_ (bal from_ - n), liquid := g.host.view.liquid - n }))
        (.stxBurn from_ n))

/-- linker.rs 2296-2421: `nft_mint`. -/
noncomputable def nftMint (g : Store World) (nm : Name) (t : Nft) (v : Value) (to_ : Principal) :
    HRes World :=
  if HasType t.key v then
    match t.owner v with
    | some _ => .ret (errUint 1) g
    | none => .ret okNft (emit (setNft g nm { t with owner := upd t.owner v (some to_) })
        (.nftMint g.host.contract nm to_ v))
  else .err g

/-- linker.rs 2157-2293: `nft_burn`. -/
noncomputable def nftBurn (g : Store World) (nm : Name) (t : Nft) (v : Value) (from_ : Principal) :
    HRes World :=
  if HasType t.key v then
    match t.owner v with
    | none => .ret (errUint 3) g
    | some o =>
      if o ≠ from_ then .ret (errUint 1) g
      else .ret okNft (emit (setNft g nm { t with owner := upd t.owner v none })
        (.nftBurn g.host.contract nm from_ v))
  else .err g

/-- linker.rs 2424-2593: `nft_transfer`. -/
noncomputable def nftTransfer (g : Store World) (nm : Name) (t : Nft) (v : Value)
    (from_ to_ : Principal) : HRes World :=
  if HasType t.key v then
    if from_ = to_ then .ret (errUint 2) g
    else match t.owner v with
    | none => .ret (errUint 3) g
    | some o =>
      if o ≠ from_ then .ret (errUint 1) g
      else .ret okNft (emit (setNft g nm { t with owner := upd t.owner v (some to_) })
        (.nftTransfer g.host.contract nm from_ to_ v))
  else .err g

/-- linker.rs 2057-2155: `nft_get_owner`, with the write of the owner's bytes at `ro`. -/
noncomputable def nftGetOwner (g : Store World) (t : Nft) (v : Value) (ro : BitVec 32) : HRes World :=
  if HasType t.key v then
    match t.owner v with
    | none => .ret [.i32 0#32, .i32 0#32, .i32 0#32] g
    | some o =>
      match writeToWasm .principal ro.toNat ro.toNat (.principal o) false g.mem with
      | some (m, _, b) => .ret [.i32 1#32, .i32 ro, .i32 (BitVec.ofNat 32 b)] (withMem g m)
      | none => .err g
  else .err g

/-- linker.rs 608-691: `get_variable`. -/
def getVariable (g : Store World) (nm : Name) (ro : BitVec 32) : HRes World :=
  match g.host.view.var g.host.contract nm with
  | none => .err g
  | some d =>
    match writeToWasm d.ty ro.toNat (ro.toNat + typeSize d.ty) d.val true g.mem with
    | some (m, _, _) => .ret [] (withMem g m)
    | none => .err g

/-- linker.rs 695-772: `set_variable`. -/
noncomputable def setVariable (g : Store World) (nm : Name) (off len : BitVec 32) : HRes World :=
  match g.host.view.var g.host.contract nm with
  | none => .err g
  | some d =>
    match readArg d.ty g.mem off len with
    | none => .err g
    | some v =>
      if HasType d.ty v then
        .ret [] (withHost g (g.host.setDb { g.host.cur.db with
          var := upd₂ g.host.cur.db.var g.host.contract nm { d with val := v } }))
      else .err g

/-- Replace a data map of the current contract. -/
noncomputable def setMap (g : Store World) (nm : Name) (t : DataMap) : Store World :=
  withHost g (g.host.setDb { g.host.cur.db with
    map := upd₂ g.host.cur.db.map g.host.contract nm t })

/-- A Clarity optional. -/
def optVal : Option Value → Value
  | some v => .some v
  | none => .none

/-- linker.rs 2598-2688: `map_get`. -/
noncomputable def mapGet (g : Store World) (nm : Name) (ko kl ro : BitVec 32) : HRes World :=
  match g.host.view.map g.host.contract nm with
  | none => .err g
  | some d =>
    match readArg d.key g.mem ko kl with
    | none => .err g
    | some k =>
      if HasType d.key k then
        match writeToWasm (.opt d.val) ro.toNat (ro.toNat + typeSize (.opt d.val))
          (optVal (d.entry k)) true g.mem with
        | some (m, _, _) => .ret [] (withMem g m)
        | none => .err g
      else .err g

/-- linker.rs 2691-2798: `map_set`. -/
noncomputable def mapSet (g : Store World) (nm : Name) (ko kl vo vl : BitVec 32) : HRes World :=
  if g.host.cur.readOnly then .err g
  else match g.host.view.map g.host.contract nm with
  | none => .err g
  | some d =>
    match readArg d.key g.mem ko kl, readArg d.val g.mem vo vl with
    | some k, some v =>
      if HasType d.key k ∧ HasType d.val v then
        .ret [.i32 1#32] (setMap g nm { d with entry := upd d.entry k (some v) })
      else .err g
    | _, _ => .err g

/-- linker.rs 2801-2908: `map_insert`. -/
noncomputable def mapInsert (g : Store World) (nm : Name) (ko kl vo vl : BitVec 32) : HRes World :=
  if g.host.cur.readOnly then .err g
  else match g.host.view.map g.host.contract nm with
  | none => .err g
  | some d =>
    match readArg d.key g.mem ko kl, readArg d.val g.mem vo vl with
    | some k, some v =>
      if HasType d.key k ∧ HasType d.val v then
        match d.entry k with
        | some _ => .ret [.i32 0#32] g
        | none => .ret [.i32 1#32] (setMap g nm { d with entry := upd d.entry k (some v) })
      else .err g
    | _, _ => .err g

/-- linker.rs 2911-3003: `map_delete`. -/
noncomputable def mapDelete (g : Store World) (nm : Name) (ko kl : BitVec 32) : HRes World :=
  if g.host.cur.readOnly then .err g
  else match g.host.view.map g.host.contract nm with
  | none => .err g
  | some d =>
    match readArg d.key g.mem ko kl with
    | none => .err g
    | some k =>
      if HasType d.key k then
        match d.entry k with
        | none => .ret [.i32 0#32] g
        | some _ => .ret [.i32 1#32] (setMap g nm { d with entry := upd d.entry k none })
      else .err g

/-- linker.rs 776-860: `tx_sender`, `contract_caller`: write the principal at `ro`. -/
def writePrin (g : Store World) (p : Option Principal) (ro : BitVec 32) : HRes World :=
  match p with
  | none => .err g
  | some p =>
    match writeToWasm .principal ro.toNat ro.toNat (.principal p) false g.mem with
    | some (m, _, b) => .ret [.i32 ro, .i32 (BitVec.ofNat 32 b)] (withMem g m)
    | none => .err g

/-- linker.rs 1106-1121: `enter_as_contract`. -/
def enterAsContract (g : Store World) : HRes World :=
  .ret [] (withHost g ((g.host.pushSender g.host.self).pushCaller g.host.self))

/-- linker.rs 1134-1143: `exit_as_contract`. -/
def exitAsContract (g : Store World) : HRes World :=
  match g.host.popSender with
  | none => .err g
  | some w =>
    match w.popCaller with
    | none => .err (withHost g w)
    | some w' => .ret [] (withHost g w')

/-- linker.rs 4607-4660: `enter_at_block`. -/
def enterAtBlock (g : Store World) (off len : BitVec 32) : HRes World :=
  match memRead g.mem off.toNat len.toNat with
  | none => .err g
  | some bhh =>
    if bhh.length ≠ 32 then .err g
    else
      let w := g.host.beginReadOnly
      match w.setBlockHash bhh false with
      | none => .err (withHost g w)
      | some (w, prev) => .ret [] (withHost g { w with bhhStack := prev :: w.bhhStack })

/-- linker.rs 4673-4700: `exit_at_block`. -/
def exitAtBlock (g : Store World) : HRes World :=
  match g.host.bhhStack with
  | [] => .err g
  | bhh :: rest =>
    let w := { g.host with bhhStack := rest }
    match w.setBlockHash bhh true with
    | none => .err (withHost g w)
    | some (w, _) =>
      match w.rollBack with
      | none => .err (withHost g w)
      | some w => .ret [] (withHost g w)

/-- The result of a host function that may fail after its effect on the host state. -/
def ofWorld (g : Store World) : Option World → HRes World
  | some w => .ret [] (withHost g w)
  | none => .err g

/-- A host function whose arguments could not be read fails. -/
def orErr {α : Type} (g : Store World) (o : Option α) (k : α → HRes World) : HRes World :=
  match o with
  | some a => k a
  | none => .err g

/-- The imported functions that use the host state (`link_host_functions`, linker.rs 30-100), on
their Wasm arguments. Functions outside the model are errors here; no theorem speaks of them. -/
noncomputable def hostFn (f : HostFn) (args : List Val) (g : Store World) : HRes World :=
  match f with
  | .begin_public_call => match args with
    | [] =>
      .ret [] (withHost g g.host.begin_)
    | _ => .err g
  | .begin_read_only_call => match args with
    | [] =>
      .ret [] (withHost g g.host.beginReadOnly)
    | _ => .err g
  | .commit_call => match args with
    | [] =>
      ofWorld g g.host.commit
    | _ => .err g
  | .roll_back_call => match args with
    | [] =>
      ofWorld g g.host.rollBack
    | _ => .err g
  | .enter_as_contract => match args with
    | [] =>
      enterAsContract g
    | _ => .err g
  | .exit_as_contract => match args with
    | [] =>
      exitAsContract g
    | _ => .err g
  | .enter_at_block => match args with
    | [.i32 o, .i32 l] =>
      enterAtBlock g o l
    | _ => .err g
  | .exit_at_block => match args with
    | [] =>
      exitAtBlock g
    | _ => .err g
  | .tx_sender => match args with
    | [.i32 o, .i32 _] =>
      writePrin g g.host.sender o
    | _ => .err g
  | .contract_caller => match args with
    | [.i32 o, .i32 _] =>
      writePrin g g.host.caller o
    | _ => .err g
  | .get_variable => match args with
    | [.i32 no, .i32 nl, .i32 ro, .i32 _] =>
      orErr g (readIdent g.mem no nl) fun nm => getVariable g nm ro
    | _ => .err g
  | .set_variable => match args with
    | [.i32 no, .i32 nl, .i32 vo, .i32 vl] =>
      orErr g (readIdent g.mem no nl) fun nm => setVariable g nm vo vl
    | _ => .err g
  | .map_get => match args with
    | [.i32 no, .i32 nl, .i32 ko, .i32 kl, .i32 ro, .i32 _] =>
      orErr g (readIdent g.mem no nl) fun nm => mapGet g nm ko kl ro
    | _ => .err g
  | .map_set => match args with
    | [.i32 no, .i32 nl, .i32 ko, .i32 kl, .i32 vo, .i32 vl] =>
      orErr g (readIdent g.mem no nl) fun nm => mapSet g nm ko kl vo vl
    | _ => .err g
  | .map_insert => match args with
    | [.i32 no, .i32 nl, .i32 ko, .i32 kl, .i32 vo, .i32 vl] =>
      orErr g (readIdent g.mem no nl) fun nm => mapInsert g nm ko kl vo vl
    | _ => .err g
  | .map_delete => match args with
    | [.i32 no, .i32 nl, .i32 ko, .i32 kl] =>
      orErr g (readIdent g.mem no nl) fun nm => mapDelete g nm ko kl
    | _ => .err g
  | .define_ft => match args with
    | [.i32 no, .i32 nl, .i32 ind, .i64 lo, .i64 hi] =>
      orErr g (readClarityName g.mem no nl) fun nm => defineFt g nm ind lo hi
    | _ => .err g
  | .ft_get_supply => match args with
    | [.i32 no, .i32 nl] =>
      orErr g (readIdent g.mem no nl) fun nm => ftGetSupply g nm
    | _ => .err g
  | .ft_get_balance => match args with
    | [.i32 no, .i32 nl, .i32 po, .i32 pl] =>
      orErr g (readClarityName g.mem no nl) fun nm =>
      orErr g (readPrin g.mem po pl) fun p => ftGetBalance g nm p
    | _ => .err g
  | .ft_mint => match args with
    | [.i32 no, .i32 nl, .i64 lo, .i64 hi, .i32 po, .i32 pl] =>
      orErr g (readClarityName g.mem no nl) fun nm =>
      orErr g (readPrin g.mem po pl) fun p => ftMint g nm (amountOf lo hi) p
    | _ => .err g
  | .ft_burn => match args with
    | [.i32 no, .i32 nl, .i64 lo, .i64 hi, .i32 po, .i32 pl] =>
      orErr g (readClarityName g.mem no nl) fun nm =>
      orErr g (readPrin g.mem po pl) fun p => ftBurn g nm (amountOf lo hi) p
    | _ => .err g
  | .ft_transfer => match args with
    | [.i32 no, .i32 nl, .i64 lo, .i64 hi, .i32 so, .i32 sl, .i32 ro, .i32 rl] =>
      orErr g (readClarityName g.mem no nl) fun nm =>
      orErr g (readPrin g.mem so sl) fun s =>
      orErr g (readPrin g.mem ro rl) fun r => ftTransfer g nm (amountOf lo hi) s r
    | _ => .err g
  | .stx_burn => match args with
    | [.i64 lo, .i64 hi, .i32 po, .i32 pl] =>
      orErr g (readPrin g.mem po pl) fun p => stxBurn g (amountOf lo hi) p
    | _ => .err g
  | .stx_transfer => match args with
    | [.i64 lo, .i64 hi, .i32 so, .i32 sl, .i32 ro, .i32 rl, .i32 mo, .i32 ml] =>
      orErr g (readPrin g.mem so sl) fun s =>
      orErr g (readPrin g.mem ro rl) fun r =>
      orErr g (if 0 < ml.toInt then memRead g.mem mo.toNat ml.toNat else some []) fun memo =>
        stxTransfer g (amountOf lo hi) s r memo
    | _ => .err g
  | .nft_get_owner => match args with
    | [.i32 no, .i32 nl, .i32 ao, .i32 al, .i32 ro, .i32 _] =>
      orErr g (readClarityName g.mem no nl) fun nm =>
      orErr g (g.host.view.nft g.host.contract nm) fun t =>
      orErr g (readArg t.key g.mem ao al) fun v => nftGetOwner g t v ro
    | _ => .err g
  | .nft_mint => match args with
    | [.i32 no, .i32 nl, .i32 ao, .i32 al, .i32 po, .i32 pl] =>
      orErr g (readClarityName g.mem no nl) fun nm =>
      orErr g (g.host.view.nft g.host.contract nm) fun t =>
      orErr g (readArg t.key g.mem ao al) fun v =>
      orErr g (readPrin g.mem po pl) fun p => nftMint g nm t v p
    | _ => .err g
  | .nft_burn => match args with
    | [.i32 no, .i32 nl, .i32 ao, .i32 al, .i32 po, .i32 pl] =>
      orErr g (readClarityName g.mem no nl) fun nm =>
      orErr g (g.host.view.nft g.host.contract nm) fun t =>
      orErr g (readArg t.key g.mem ao al) fun v =>
      orErr g (readPrin g.mem po pl) fun p => nftBurn g nm t v p
    | _ => .err g
  | .nft_transfer => match args with
    | [.i32 no, .i32 nl, .i32 ao, .i32 al, .i32 so, .i32 sl, .i32 ro, .i32 rl] =>
      orErr g (readClarityName g.mem no nl) fun nm =>
      orErr g (g.host.view.nft g.host.contract nm) fun t =>
      orErr g (readArg t.key g.mem ao al) fun v =>
      orErr g (readPrin g.mem so sl) fun s =>
      orErr g (readPrin g.mem ro rl) fun r => nftTransfer g nm t v s r
    | _ => .err g
  | .stx_get_balance => match args with
    | [.i32 po, .i32 pl] => orErr g (readPrin g.mem po pl) fun p => stxGetBalance g p
    | _ => .err g
  | _ => .err g

end Host
