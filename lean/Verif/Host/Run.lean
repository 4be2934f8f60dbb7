import Verif.Host.Args
import Verif.Host.Errors
import Verif.Host.World

/-!
Model of `call_function` (`/repo/clar2wasm/src/wasm_utils.rs` 1244-1359) and of
`reserve_space_for_return` (1586-1632).

Not modelled: loading, linking and instantiating the module (1262-1287), the lookup of the function
by name (1257-1261, 1290-1292); the `i32` offsets are natural numbers, as they are while they are below
`2 ^ 31`.
-/

namespace Host
open Wasm Spec

mutual
/-- wasm_utils.rs 1586-1632 (`reserve_space_for_return`): how far the offset is moved. -/
def reserve : Ty → Nat
  | .uint | .int | .bool | .noType => 0
  | .opt t => reserve t
  | .resp o e => reserve o + reserve e
  | .tuple fs => reserveF fs
  | t => typeInMemorySize false t
/-- The loop over the fields of a tuple (1619-1627). -/
def reserveF : Fields → Nat
  | .nil => 0
  | .cons _ t fs => reserve t + reserveF fs
end

/-- What the caller of `call_function` gets: the value, with the state that is left; the error made of
a trap (`none`: making it panics); or an internal error or panic in passing the arguments or reading
the result. -/
inductive Reply
  | value (v : Value) (w : World)
  | error (e : Option VmError)
  | internal

/-- wasm_utils.rs 1294-1342: the instance when the function starts, and its Wasm arguments. -/
def prepare (ret : Ty) (args : List (Ty × Value)) (g : Store World) : Option (List Val × Store World) := do
  let (ws, _, im, m) ← passArgs args (g.g32 .stackPointer).toNat g.mem
  some (ws, { g with mem := m, g32 := fun x => if x = .stackPointer then BitVec.ofNat 32 (im + reserve ret) else g.g32 x })

/-- wasm_utils.rs 1344-1359: what is made of the result of the call. -/
def finish (sig : List Byte → Option Ty) (ret : Ty) : CRes World → Reply
  | .ret us g' => match wasmToClarity ret 0 us g'.mem with
    | some (some v, _) => .value v g'.host
    | _ => .internal
  | .trap g' => .error (fromRuntimeErrorCode sig g')
  | _ => .internal

/-- wasm_utils.rs 1294-1359: `call_function` of function `j`, with these argument and result types,
on the instance `g` ends in `a`. -/
inductive Calls (sig : List Byte → Option Ty) (M : Wasm.Mod World) (j : Nat) (ret : Ty) (args : List (Ty × Value))
    (g : Store World) : Reply → Prop
  | noArgs : prepare ret args g = none → Calls sig M j ret args g .internal
  | runs {ws : List Val} {g1 : Store World} {r : CRes World} : prepare ret args g = some (ws, g1) → r ≠ .oof →
      Runs M (.user j) ws g1 r → Calls sig M j ret args g (finish sig ret r)

/-- There is only one answer. -/
theorem Calls.unique {sig : List Byte → Option Ty} {M : Wasm.Mod World} {j : Nat} {ret : Ty} {args : List (Ty × Value)}
    {g : Store World} {a a' : Reply} (h : Calls sig M j ret args g a) (h' : Calls sig M j ret args g a') : a = a' := by
  cases h with
  | noArgs h1 =>
    cases h' with
    | noArgs => rfl
    | runs h2 => rw [h1] at h2; cases h2
  | runs h1 _ h2 =>
    cases h' with
    | noArgs h3 => rw [h1] at h3; cases h3
    | runs h3 _ h4 =>
      rw [h1] at h3
      cases h3
      obtain ⟨n, h2⟩ := h2
      obtain ⟨n', h4⟩ := h4
      rw [← h2 (max n n') (by omega), ← h4 (max n n') (by omega)]

end Host
