import Verif.Gen.Compile
import Verif.Gen.Fit

/-!
Well-typed programs of the core language, as far as code generation relies on it. The clarity crate's
type checker, which is not part of `/repo`, accepts a program before code is generated for it.
-/

namespace Gen
open Wasm Spec Host Core

/-- Types of the variables in scope. -/
abbrev TEnv := List (Name × Ty)

/-- `T` is a type of literals. -/
def LitTy : Ty → Prop
  | .int | .uint | .bool | .principal | .buff _ | .ascii _ | .utf8 _ => True
  | _ => False

/-- The bytes of a literal, if any, are in the data segment. -/
def LitIn (K : Ctx) : Value → Prop
  | .int _ | .uint _ | .bool _ => True
  | .buff bs => bs ∈ K.lits
  | .ascii bs => bs ∈ K.lits
  | .utf8 cs => cs.flatMap beBytes4 ∈ K.lits
  | .principal p => principalBytes p ∈ K.lits
  | _ => False

/-- Integer types. -/
def IntTy (T : Ty) : Prop := T = .int ∨ T = .uint

/-- A sequence type as Clarity allows it: a value takes at most 1024x1024 bytes, so there are at most
that many elements. -/
def SeqOk (S : Ty) : Prop := isSeq S = true ∧ S.WF ∧ maxLen S ≤ 2 ^ 20 ∧ unit S < 2 ^ 32

/-- Types that can be compared. -/
def CmpTy (T U : Ty) : Prop :=
  (IntTy T ∧ U = T) ∨ (∃ a b, T = .buff a ∧ U = .buff b) ∨ (∃ a b, T = .ascii a ∧ U = .ascii b) ∨
    (∃ a b, T = .utf8 a ∧ U = .utf8 b)

/-- Types of strings. -/
def StrTy (T : Ty) : Prop := (∃ n, T = .ascii n) ∨ (∃ n, T = .utf8 n)

/-- Types of the operators. -/
def wordTy : Word → List Ty → Ty → Prop
  | .pow, Ts, T => IntTy T ∧ Ts = [T, T]
  | .log2, Ts, T | .sqrti, Ts, T | .bitNot, Ts, T => IntTy T ∧ Ts = [T]
  | .shl, Ts, T | .shr, Ts, T => IntTy T ∧ Ts = [T, .uint]
  | .strToInt, Ts, T => ∃ S, StrTy S ∧ Ts = [S] ∧ T = .opt .int
  | .strToUint, Ts, T => ∃ S, StrTy S ∧ Ts = [S] ∧ T = .opt .uint
  | .bits _, Ts, T => IntTy T ∧ ∃ k, Ts = List.replicate (k + 1) T

/-- The data segments of the runtime library are in the module's data (wasm_generator.rs 33: `END_OF_STANDARD_DATA`). -/
def StdIn (K : Ctx) : Prop := ∀ d ∈ stdData, d.2 ∈ K.lits ∧ K.off d.2 = d.1

/-- Types of the words with a result in memory; the work space that the word needs is reserved. `hash160` needs more
than hashing.rs 86 asks for (C41). -/
def memTy (K : Ctx) : MWord → Ty → Ty → Prop
  | .intToAscii, S, T => IntTy S ∧ ∃ m, 40 ≤ m ∧ m ≤ 1048576 ∧ T = .ascii m
  | .intToUtf8, S, T => IntTy S ∧ ∃ m, 40 ≤ m ∧ m ≤ 1048576 ∧ T = .utf8 m
  | .sha256, S, T => T = .buff 32 ∧ ((IntTy S ∧ 361 ≤ K.ws) ∨ ∃ m, S = .buff m ∧ m ≤ 1048576 ∧ m + 361 ≤ K.ws)
  | .sha512, S, T => T = .buff 64 ∧ ((IntTy S ∧ 849 ≤ K.ws) ∨ ∃ m, S = .buff m ∧ m ≤ 1048576 ∧ m + 849 ≤ K.ws)
  | .hash160, S, T => T = .buff 20 ∧ ((IntTy S ∧ 386 ≤ K.ws) ∨ ∃ m, S = .buff m ∧ m ≤ 1048576 ∧ m + 392 ≤ K.ws)

/-- Types of the operators. -/
def primTy : Prim → List Ty → Ty → Prop
  | .some_, Ts, T => ∃ t, Ts = [t] ∧ T = .opt t
  | .ok_, Ts, T => ∃ t e, Ts = [t] ∧ T = .resp t e
  | .err_, Ts, T => ∃ t o, Ts = [t] ∧ T = .resp o t
  | .isSome, Ts, T => ∃ t, Ts = [.opt t] ∧ T = .bool
  | .isNone, Ts, T => ∃ t, Ts = [.opt t] ∧ T = .bool
  | .isOk, Ts, T => ∃ o e, Ts = [.resp o e] ∧ T = .bool
  | .isErr, Ts, T => ∃ o e, Ts = [.resp o e] ∧ T = .bool
  | .not_, Ts, T => Ts = [.bool] ∧ T = .bool
  | .defaultTo, Ts, T => Ts = [T, .opt T]
  | .unwrapPanic, Ts, T => Ts = [.opt T] ∨ ∃ e, Ts = [.resp T e]
  | .unwrapErrPanic, Ts, T => ∃ o, Ts = [.resp o T]
  | .get k, Ts, T => ∃ fs t, fs.keys.Nodup ∧ fieldTy k fs = some t ∧
      ((Ts = [.tuple fs] ∧ T = t) ∨ (Ts = [.opt (.tuple fs)] ∧ T = .opt t))
  | .mod, Ts, T => IntTy T ∧ Ts = [T, T]
  | .lt, Ts, T | .le, Ts, T | .gt, Ts, T | .ge, Ts, T => ∃ t u, CmpTy t u ∧ Ts = [t, u] ∧ T = .bool
  | .toInt, Ts, T => Ts = [.uint] ∧ T = .int
  | .toUint, Ts, T => Ts = [.int] ∧ T = .uint
  | .len, Ts, T => ∃ S, SeqOk S ∧ Ts = [S] ∧ T = .uint
  | .asMaxLen m, Ts, T => ∃ S, SeqOk S ∧ m < 2 ^ 32 ∧ Ts = [S] ∧ T = .opt (withMax m S)
  | .word q, Ts, T => wordTy q Ts T

/-- The token is declared and its name is in the data segment. -/
def tokenIn (K : Ctx) (x : Name) : Prop := x ∈ K.lits ∧ K.fts x = true ∧ clarityName (x.map BitVec.toNat) = true

/-- Types of the words on tokens. -/
def tokenTy (K : Ctx) (w : Bool) : TWord → List Ty → Ty → Prop
  | .stxTransfer, Ts, T => w = true ∧ Ts = [.uint, .principal, .principal] ∧ T = .resp .bool .uint
  | .stxMemo, Ts, T => w = true ∧ (∃ m, m ≤ 34 ∧ Ts = [.uint, .principal, .principal, .buff m]) ∧ T = .resp .bool .uint
  | .stxBurn, Ts, T => w = true ∧ Ts = [.uint, .principal] ∧ T = .resp .bool .uint
  | .ftMint x, Ts, T | .ftBurn x, Ts, T => tokenIn K x ∧ w = true ∧ Ts = [.uint, .principal] ∧ T = .resp .bool .uint
  | .ftTransfer x, Ts, T => tokenIn K x ∧ w = true ∧ Ts = [.uint, .principal, .principal] ∧ T = .resp .bool .uint
  | .ftSupply x, Ts, T => tokenIn K x ∧ Ts = [] ∧ T = .uint
  | .ftBalance x, Ts, T => tokenIn K x ∧ Ts = [.principal] ∧ T = .uint
  | .stxBalance, Ts, T => Ts = [.principal] ∧ T = .uint

/-- Operators that never fail. -/
def Total : Prim → Prop
  | .unwrapPanic | .unwrapErrPanic | .mod | .toInt | .toUint | .word _ => False
  | _ => True

/-- The words, among the operators, that `fold` and `map` take. -/
def Light : Prim → Prop
  | .not_ | .mod | .lt | .le | .gt | .ge | .toInt | .toUint | .word _ => True
  | _ => False

/-- `f` is defined for arguments of types `Ts` and gives a `T`. -/
def fnTy (K : Ctx) (k : Nat) (w : Bool) : Fn → List Ty → Ty → Prop
  | .user j, Ts, T => j < k ∧ ∃ fd, K.fns[j]? = some fd ∧ fd.params.map Prod.snd = Ts ∧ fd.ret = T ∧ (fd.writes = true → w = true)
  | .word q, Ts, T => Light q ∧ primTy q Ts T
  | .nary _, Ts, T => IntTy T ∧ Ts ≠ [] ∧ ∀ U ∈ Ts, U = T
  | .and_, Ts, T | .or_, Ts, T => T = .bool ∧ Ts ≠ [] ∧ ∀ U ∈ Ts, U = .bool

mutual
/-- Expressions whose evaluation has no effect, does not fail and does not return early. -/
def Simple : Expr → Prop
  | .lit _ | .none_ | .var _ | .txSender | .contractCaller => True
  | .prim p es => Total p ∧ Simples es
  | _ => False
/-- All of them. -/
def Simples : Exprs → Prop
  | .nil => True
  | .cons _ e es => Simple e ∧ Simples es
end

/-- No part of the type is kept in memory (wasm_generator.rs 2185-2202: `has_in_memory_type`). -/
def Flat : Ty → Prop
  | .noType | .int | .uint | .bool => True
  | .opt t => Flat t
  | .resp o e => Flat o ∧ Flat e
  | .tuple fs => FlatF fs
  | _ => False
where
  /-- The same for the fields. -/
  FlatF : Fields → Prop
  | .nil => True
  | .cons _ t fs => Flat t ∧ FlatF fs

/-- Expressions whose code does not depend on the type the type checker gives them. -/
def fixedCode : Expr → Bool
  | .var _ | .call _ _ => true
  | _ => false

/-- The field list of a tuple type, from sorted fields. -/
def toFields : List (Name × Ty) → Fields
  | [] => .nil
  | (k, t) :: r => .cons k t (toFields r)

mutual
/-- `e` has type `T`: in function number `k`, with return type `R`, under the variables `Δ`. `w`:
writing the datastore is allowed (not in a read-only function). `er`: early returns are allowed. -/
def wt (K : Ctx) (k : Nat) (w : Bool) (R : Ty) : Expr → Bool → TEnv → Ty → Prop
  | .lit v, _, _, T => LitTy T ∧ HasType T v ∧ LitIn K v
  | .none_, _, _, T => ∃ U, T = .opt U
  | .var x, _, Δ, T => ∃ D, look x Δ = some D ∧ Fit D T
  | .txSender, _, _, T => T = .principal
  | .contractCaller, _, _, T => T = .principal
  | .prim p es, er, Δ, T => wts K k w R es er Δ ∧ primTy p (tys es) T
  | .nary _ es, er, Δ, T => IntTy T ∧ wts K k w R es er Δ ∧ (∀ U ∈ tys es, U = T) ∧ (match es with
    | .nil => False
    | .cons _ _ .nil => True
    | .cons _ _ (.cons _ _ es) => Simples es)
  | .isEq U es, er, Δ, T => T = .bool ∧ comparable U = true ∧ U.WF ∧ wts K k w R es er Δ ∧
      (∀ V ∈ tys es, V = U) ∧ es ≠ .nil
  | .tuple bs, er, Δ, T => wtFields K k w R bs er Δ ∧ T = .tuple (toFields (sortFields (btys bs)))
  | .let_ bs body, er, Δ, T => wtBinds K k w R bs er Δ ∧
      wtSeq K k w R body er ((btys bs).reverse ++ Δ) T
  | .begin_ body, er, Δ, T => wtSeq K k w R body er Δ T
  | .ite c a b, er, Δ, T => wt K k w R c er Δ .bool ∧ wt K k w R a er Δ T ∧ wt K k w R b er Δ T
  | .and_ es, er, Δ, T => T = .bool ∧ wts K k w R es er Δ ∧ ∀ U ∈ tys es, U = .bool
  | .or_ es, er, Δ, T => T = .bool ∧ wts K k w R es er Δ ∧ ∀ U ∈ tys es, U = .bool
  | .matchOpt U e x a b, er, Δ, T => wt K k w R e er Δ (.opt U) ∧ wt K k w R a er ((x, U) :: Δ) T ∧
      wt K k w R b er Δ T
  | .matchResp O E e x a y b, er, Δ, T => wt K k w R e er Δ (.resp O E) ∧
      wt K k w R a er ((x, O) :: Δ) T ∧ wt K k w R b er ((y, E) :: Δ) T
  | .asserts c t, er, Δ, T => er = true ∧ T = .bool ∧ wt K k w R c er Δ .bool ∧ wt K k w R t er Δ R ∧
      Simple t
  | .unwrapOpt e t, er, Δ, T => er = true ∧ wt K k w R e er Δ (.opt T) ∧ wt K k w R t er Δ R
  | .unwrapResp E e t, er, Δ, T => er = true ∧ wt K k w R e er Δ (.resp T E) ∧ wt K k w R t er Δ R
  | .unwrapErr O e t, er, Δ, T => er = true ∧ wt K k w R e er Δ (.resp O T) ∧ wt K k w R t er Δ R
  | .tryOpt e, er, Δ, T => er = true ∧ wt K k w R e er Δ (.opt T) ∧ ∃ U, R = .opt U ∧ wty U = wty T
  | .tryResp E e, er, Δ, T => er = true ∧ wt K k w R e er Δ (.resp T E) ∧
      ∃ O E', R = .resp O E' ∧ Fit E E'
  | .call f es, er, Δ, T => wts K k w R es er Δ ∧ f < k ∧ ∃ fd, K.fns[f]? = some fd ∧
      tys es = fd.params.map Prod.snd ∧ T = fd.ret ∧ T.WF ∧ (fd.writes = true → w = true)
  | .asContract e, _, Δ, T => wt K k w R e false Δ T
  | .varGet x, _, _, T => x ∈ K.lits ∧ K.vars x = some T
  | .varSet x e, er, Δ, T => T = .bool ∧ w = true ∧ x ∈ K.lits ∧
      ∃ D, K.vars x = some D ∧ wt K k w R e er Δ D
  | .mapGet m e, er, Δ, T => m ∈ K.lits ∧
      ∃ D V, K.maps m = some (D, V) ∧ T = .opt V ∧ wt K k w R e er Δ D
  | .mapSet m e v, er, Δ, T => T = .bool ∧ w = true ∧ m ∈ K.lits ∧
      ∃ D V, K.maps m = some (D, V) ∧ wt K k w R e er Δ D ∧ wt K k w R v er Δ V
  | .mapInsert m e v, er, Δ, T => T = .bool ∧ w = true ∧ m ∈ K.lits ∧
      ∃ D V, K.maps m = some (D, V) ∧ wt K k w R e er Δ D ∧ wt K k w R v er Δ V
  | .mapDelete m e, er, Δ, T => T = .bool ∧ w = true ∧ m ∈ K.lits ∧
      ∃ D V, K.maps m = some (D, V) ∧ wt K k w R e er Δ D
  | .elementAt S e i, er, Δ, T => SeqOk S ∧ T = .opt (elemTy S) ∧ wt K k w R e er Δ S ∧ wt K k w R i er Δ .uint
  | .slice S e l r, er, Δ, T => SeqOk S ∧ T = .opt S ∧ wt K k w R e er Δ S ∧ wt K k w R l er Δ .uint ∧
      wt K k w R r er Δ .uint
  | .indexOf S e x, er, Δ, T => SeqOk S ∧ comparable (elemTy S) = true ∧ T = .opt .uint ∧
      wt K k w R e er Δ S ∧ wt K k w R x er Δ (elemTy S)
  | .list es, er, Δ, T => ∃ m E, T = .list m E ∧ (tys es).length ≤ m ∧ wts K k w R es er Δ ∧ ∀ U ∈ tys es, U = E
  | .append e x, er, Δ, T => ∃ m E, T = .list (m + 1) E ∧ SeqOk T ∧ wt K k w R e er Δ (.list m E) ∧ wt K k w R x er Δ E
  | .concat T0 a b, er, Δ, T => SeqOk T ∧ (∀ v, HasType T0 v → HasType T v) ∧ wt K k w R a er Δ T ∧ wt K k w R b er Δ T
  | .replaceAt S e i x, er, Δ, T => SeqOk S ∧ T = .opt S ∧ wt K k w R e er Δ S ∧ wt K k w R i er Δ .uint ∧
      wt K k w R x er Δ (elemTy S)
  | .mem q S e, er, Δ, T => StdIn K ∧ memTy K q S T ∧ wt K k w R e er Δ S
  | .token q es, er, Δ, T => wts K k w R es er Δ ∧ tokenTy K w q (tys es) T
  -- a value that could be too long is rejected by the type checker
  | .toBuff V e, er, Δ, T => V.WF ∧ maxEncoding V ≤ 1048576 ∧ (∀ x ∈ keysOf V, x ∈ K.lits) ∧
      T = .opt (.buff (maxEncoding V)) ∧ wt K k w R e er Δ V
  | .fromBuff V mx e, er, Δ, T => V.WF ∧ T = .opt V ∧ wt K k w R e er Δ (.buff mx)
  -- the accumulator is on the stack
  | .fold f S e i, er, Δ, T => SeqOk S ∧ wt K k w R e er Δ S ∧ wt K k w R i er Δ T ∧ hasInMem T = false ∧
      fnTy K k w f [elemTy S, T] T
  | .filter f e, er, Δ, T => SeqOk T ∧ wt K k w R e er Δ T ∧ f < k ∧
      ∃ fd, K.fns[f]? = some fd ∧ fd.kind = .priv ∧ fd.params.map Prod.snd = [elemTy T] ∧ fd.ret = .bool ∧
        (fd.writes = true → w = true)
  -- the results are on the stack
  | .map f es, er, Δ, T => ∃ m E, T = .list m E ∧ SeqOk T ∧ hasInMem E = false ∧ es ≠ .nil ∧ wtMap K k w R es (isUser f) er Δ ∧
      ((∃ S ∈ tys es, maxLen S ≤ m)) ∧ fnTy K k w f ((tys es).map elemTy) E
/-- The sequences of `map`. The first one is compiled with another type, which must not matter; or it is a
list whose elements are given, which must fit both types. -/
def wtMap (K : Ctx) (k : Nat) (w : Bool) (R : Ty) : Exprs → Bool → Bool → TEnv → Prop
  | .nil, _, _, _ => True
  | .cons S e es, first, er, Δ => SeqOk S ∧ (maxLen S + 1) * unit S < 2 ^ 31 ∧
      ((wt K k w R e er Δ S ∧ (first = true → mapTy S = S ∨ fixedCode e = true)) ∨
        (first = true ∧ SeqOk (mapTy S) ∧ wt K k w R e er Δ (mapTy S) ∧ ∃ es', e = .list es' ∧ (tys es').length ≤ maxLen S)) ∧
      wtMap K k w R es false er Δ
/-- Every expression has the type it carries. -/
def wts (K : Ctx) (k : Nat) (w : Bool) (R : Ty) : Exprs → Bool → TEnv → Prop
  | .nil, _, _ => True
  | .cons T e es, er, Δ => wt K k w R e er Δ T ∧ wts K k w R es er Δ
/-- A statement list of type `T`. -/
def wtSeq (K : Ctx) (k : Nat) (w : Bool) (R : Ty) : Exprs → Bool → TEnv → Ty → Prop
  | .nil, _, _, _ => False
  | .cons U e es, er, Δ, T => wt K k w R e er Δ U ∧ (match es with
    | .nil => U = T
    | es => wtSeq K k w R es er Δ T)
/-- `let` bindings. -/
def wtBinds (K : Ctx) (k : Nat) (w : Bool) (R : Ty) : Binds → Bool → TEnv → Prop
  | .nil, _, _ => True
  | .cons x T e bs, er, Δ => wt K k w R e er Δ T ∧ wtBinds K k w R bs er ((x, T) :: Δ)
/-- Tuple fields. -/
def wtFields (K : Ctx) (k : Nat) (w : Bool) (R : Ty) : Binds → Bool → TEnv → Prop
  | .nil, _, _ => True
  | .cons _ T e bs, er, Δ => wt K k w R e er Δ T ∧ wtFields K k w R bs er Δ
end

/-- Function number `k` is well typed. -/
def FnOk (K : Ctx) (k : Nat) (f : FunDef) : Prop :=
  wt K k f.writes f.ret f.body true f.params.reverse f.ret ∧ (f.params.map Prod.fst).Nodup ∧
    (f.kind = .ro → f.writes = false) ∧ (f.kind = .pub → ∃ o e, f.ret = .resp o e)

/-- A well-typed contract: its functions and the types of its variables and maps. -/
structure ContractOk (K : Ctx) : Prop where
  fns : ∀ (k : Nat) f, K.fns[k]? = some f → FnOk K k f
  vars : ∀ x T, K.vars x = some T → T.WF ∧ Plain T
  maps : ∀ x D V, K.maps x = some (D, V) → (D.WF ∧ Plain D) ∧ V.WF ∧ Plain V

end Gen
