import Verif.Host.World

/-!
Model of the imported functions that declare variables, maps and non-fungible tokens when a contract is initialised
(`/repo/clar2wasm/src/linker.rs` 108-209, 279-348, 350-425; `define_ft` is in `Host/World.lean`).

Not modelled: the names and metadata recorded in the contract context (`persisted_names`, `meta_data_var`, …), the
accounting of memory, and what remains after an error in the middle of a declaration (initialisation is then abandoned).
-/

namespace Host
open Wasm Spec Classical

/-- clarity crate `ContractAnalysis`: the types the type checker found for the declarations of the contract. -/
structure Analysis where
  var : Name → Option Ty
  map : Name → Option (Ty × Ty)
  nft : Name → Option Ty

/-- linker.rs 144-197: `define_variable`, after its name has been read and its type looked up. `set_variable` of the
clarity crate checks the type of the value. -/
noncomputable def defineVariable (g : Store World) (nm : Name) (T : Ty) (vo vl : BitVec 32) : HRes World :=
  match readArg T g.mem vo vl with
  | none => .err g
  | some v =>
    if HasType T v then
      .ret [] (withHost g (g.host.setDb { g.host.cur.db with
        var := upd₂ g.host.cur.db.var g.host.contract nm ⟨T, v⟩ }))
    else .err g

/-- linker.rs 402-415: `define_map`. -/
noncomputable def defineMap (g : Store World) (nm : Name) (K V : Ty) : HRes World :=
  .ret [] (setMap g nm ⟨K, V, fun _ => none⟩)

/-- linker.rs 324-338: `define_nft`. -/
noncomputable def defineNft (g : Store World) (nm : Name) (T : Ty) : HRes World :=
  .ret [] (setNft g nm ⟨T, fun _ => none⟩)

/-- The declaring functions on their Wasm arguments. `World.init` says that there is an analysis (130-139, 378-383,
309-315) and that the contract context can be changed. -/
noncomputable def defineFn (A : Analysis) (f : HostFn) (args : List Val) (g : Store World) : HRes World :=
  match f with
  | .define_variable => match args with
    | [.i32 no, .i32 nl, .i32 vo, .i32 vl] =>
      orErr g (readClarityName g.mem no nl) fun nm =>
      orErr g (if g.host.init then A.var nm else none) fun T => defineVariable g nm T vo vl
    | _ => .err g
  | .define_map => match args with
    | [.i32 no, .i32 nl] =>
      orErr g (readClarityName g.mem no nl) fun nm =>
      orErr g (if g.host.init then A.map nm else none) fun T => defineMap g nm T.1 T.2
    | _ => .err g
  | .define_nft => match args with
    | [.i32 no, .i32 nl] =>
      orErr g (readClarityName g.mem no nl) fun nm =>
      orErr g (if g.host.init then A.nft nm else none) fun T => defineNft g nm T
    | _ => .err g
  | f => hostFn f args g

end Host
