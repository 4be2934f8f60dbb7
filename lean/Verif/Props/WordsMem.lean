import Verif.Props.Words
import Verif.Props.Hash

/-!
C48: `int-to-ascii`, `int-to-utf8`, `sha256`, `sha512` and `hash160` in a compiled contract. `StdIn K` says that the data
of the runtime library is in the module; `K.ws` is the work space that the module reserves above the stack.
-/

namespace Props
open Wasm Spec Host Core Gen

section
variable (K : Ctx) (M : Wasm.Mod World) (hC : ContractOk K) (hL : Linked K M) (hK : StdIn K) (k : Nat) (R : Ty) (wr er : Bool)
  (Δ : TEnv) (ρ : Env) (c : Cx) (s s1 : St) (T : Ty) (e : Expr) (hte : wt K k wr R e er Δ T) (x : Value)
  (he : eval (sem K.fns k) e ρ c s = .val x s1)
include hC hL hK hte he

theorem word_mem {q : MWord} {U : Ty} (ht : memTy K q T U) {v : Value} (hv : q.eval x = .ok v) :
    Leaves K M k R wr Δ (.mem q T e) U ρ c s v s1 :=
  leaves hC hL (er := er) (by simp only [wt]; exact ⟨hK, ht, hte⟩) (by simp only [eval, he, Out.bind, hv, Ans.out])

/-- **C48**, `int-to-ascii`: the canonical decimal numeral, after a minus sign if the integer is negative. -/
theorem C48_int_to_ascii (m : Nat) (h1 : 40 ≤ m) (h2 : m ≤ 1048576) :
    (∀ n : Nat, T = .uint → x = .uint n →
      Leaves K M k R wr Δ (.mem .intToAscii T e) (.ascii m) ρ c s (.ascii ((decStr n).map (BitVec.ofNat 8))) s1) ∧
    (∀ z : Int, T = .int → x = .int z →
      Leaves K M k R wr Δ (.mem .intToAscii T e) (.ascii m) ρ c s
        (.ascii (((if z < 0 then [45] else []) ++ decStr z.natAbs).map (BitVec.ofNat 8))) s1) := by
  refine ⟨fun n hT hx => ?_, fun z hT hx => ?_⟩ <;> subst hT hx
  · exact word_mem K M hC hL hK k R wr er Δ ρ c s s1 _ e hte _ he (q := .intToAscii) (U := .ascii m) ⟨.inr rfl, m, h1, h2, rfl⟩ rfl
  · refine word_mem K M hC hL hK k R wr er Δ ρ c s s1 _ e hte _ he (q := .intToAscii) (U := .ascii m) ⟨.inl rfl, m, h1, h2, rfl⟩ ?_
    simp only [MWord.eval, numeral, Ans.ofOption, intStr]
    split <;> rfl

/-- **C48**, `int-to-utf8`: the characters of the same numeral. -/
theorem C48_int_to_utf8 (m : Nat) (h1 : 40 ≤ m) (h2 : m ≤ 1048576) :
    (∀ n : Nat, T = .uint → x = .uint n →
      Leaves K M k R wr Δ (.mem .intToUtf8 T e) (.utf8 m) ρ c s (.utf8 (decStr n)) s1) ∧
    (∀ z : Int, T = .int → x = .int z →
      Leaves K M k R wr Δ (.mem .intToUtf8 T e) (.utf8 m) ρ c s
        (.utf8 ((if z < 0 then [45] else []) ++ decStr z.natAbs)) s1) := by
  refine ⟨fun n hT hx => ?_, fun z hT hx => ?_⟩ <;> subst hT hx
  · exact word_mem K M hC hL hK k R wr er Δ ρ c s s1 _ e hte _ he (q := .intToUtf8) (U := .utf8 m) ⟨.inr rfl, m, h1, h2, rfl⟩ rfl
  · refine word_mem K M hC hL hK k R wr er Δ ρ c s s1 _ e hte _ he (q := .intToUtf8) (U := .utf8 m) ⟨.inl rfl, m, h1, h2, rfl⟩ ?_
    simp only [MWord.eval, numeral, Ans.ofOption, intStr]
    split <;> rfl

/-- **C48**, `sha256`: the SHA-256 digest of the bytes of a buffer, or of the sixteen little-endian bytes of an integer,
if the module reserves the work space that the compiler asks for (words/hashing.rs 34, 44, 109). -/
theorem C48_sha256 :
    (∀ m bs, T = .buff m → m ≤ 1048576 → m + 361 ≤ K.ws → x = .buff bs →
      Leaves K M k R wr Δ (.mem .sha256 T e) (.buff 32) ρ c s (.buff (sha256F.digest bs)) s1) ∧
    (∀ n : Nat, T = .uint → 361 ≤ K.ws → x = .uint n →
      Leaves K M k R wr Δ (.mem .sha256 T e) (.buff 32) ρ c s (.buff (sha256F.digest (Sha2.leBytes 16 n))) s1) ∧
    (∀ z : Int, T = .int → 361 ≤ K.ws → x = .int z →
      Leaves K M k R wr Δ (.mem .sha256 T e) (.buff 32) ρ c s
        (.buff (sha256F.digest (Sha2.leBytes 16 (z % 2 ^ 128).toNat))) s1) := by
  refine ⟨fun m bs hT h1 h2 hx => ?_, fun n hT h1 hx => ?_, fun z hT h1 hx => ?_⟩ <;> subst hT hx
  · exact word_mem K M hC hL hK k R wr er Δ ρ c s s1 _ e hte _ he (q := .sha256) (U := .buff 32) ⟨rfl, .inr ⟨m, rfl, h1, h2⟩⟩ rfl
  · exact word_mem K M hC hL hK k R wr er Δ ρ c s s1 _ e hte _ he (q := .sha256) (U := .buff 32) ⟨rfl, .inl ⟨.inr rfl, h1⟩⟩ rfl
  · exact word_mem K M hC hL hK k R wr er Δ ρ c s s1 _ e hte _ he (q := .sha256) (U := .buff 32) ⟨rfl, .inl ⟨.inl rfl, h1⟩⟩ rfl

/-- **C48**, `sha512`: likewise (words/hashing.rs 34, 44, 194). -/
theorem C48_sha512 :
    (∀ m bs, T = .buff m → m ≤ 1048576 → m + 849 ≤ K.ws → x = .buff bs →
      Leaves K M k R wr Δ (.mem .sha512 T e) (.buff 64) ρ c s (.buff (sha512F.digest bs)) s1) ∧
    (∀ n : Nat, T = .uint → 849 ≤ K.ws → x = .uint n →
      Leaves K M k R wr Δ (.mem .sha512 T e) (.buff 64) ρ c s (.buff (sha512F.digest (Sha2.leBytes 16 n))) s1) ∧
    (∀ z : Int, T = .int → 849 ≤ K.ws → x = .int z →
      Leaves K M k R wr Δ (.mem .sha512 T e) (.buff 64) ρ c s
        (.buff (sha512F.digest (Sha2.leBytes 16 (z % 2 ^ 128).toNat))) s1) := by
  refine ⟨fun m bs hT h1 h2 hx => ?_, fun n hT h1 hx => ?_, fun z hT h1 hx => ?_⟩ <;> subst hT hx
  · exact word_mem K M hC hL hK k R wr er Δ ρ c s s1 _ e hte _ he (q := .sha512) (U := .buff 64) ⟨rfl, .inr ⟨m, rfl, h1, h2⟩⟩ rfl
  · exact word_mem K M hC hL hK k R wr er Δ ρ c s s1 _ e hte _ he (q := .sha512) (U := .buff 64) ⟨rfl, .inl ⟨.inr rfl, h1⟩⟩ rfl
  · exact word_mem K M hC hL hK k R wr er Δ ρ c s s1 _ e hte _ he (q := .sha512) (U := .buff 64) ⟨rfl, .inl ⟨.inl rfl, h1⟩⟩ rfl

/-- **C48**, `hash160`: RIPEMD-160 of the SHA-256 digest, with more work space than the compiler asks for
(words/hashing.rs 87 asks for `m + 361` and 361; `C41_no_room_counterexample`). -/
theorem C48_hash160_partial :
    (∀ m bs, T = .buff m → m ≤ 1048576 → m + 392 ≤ K.ws → x = .buff bs →
      Leaves K M k R wr Δ (.mem .hash160 T e) (.buff 20) ρ c s (.buff (hash160 bs)) s1) ∧
    (∀ n : Nat, T = .uint → 386 ≤ K.ws → x = .uint n →
      Leaves K M k R wr Δ (.mem .hash160 T e) (.buff 20) ρ c s (.buff (hash160 (Sha2.leBytes 16 n))) s1) ∧
    (∀ z : Int, T = .int → 386 ≤ K.ws → x = .int z →
      Leaves K M k R wr Δ (.mem .hash160 T e) (.buff 20) ρ c s (.buff (hash160 (Sha2.leBytes 16 (z % 2 ^ 128).toNat))) s1) := by
  refine ⟨fun m bs hT h1 h2 hx => ?_, fun n hT h1 hx => ?_, fun z hT h1 hx => ?_⟩ <;> subst hT hx
  · exact word_mem K M hC hL hK k R wr er Δ ρ c s s1 _ e hte _ he (q := .hash160) (U := .buff 20) ⟨rfl, .inr ⟨m, rfl, h1, h2⟩⟩ rfl
  · exact word_mem K M hC hL hK k R wr er Δ ρ c s s1 _ e hte _ he (q := .hash160) (U := .buff 20) ⟨rfl, .inl ⟨.inr rfl, h1⟩⟩ rfl
  · exact word_mem K M hC hL hK k R wr er Δ ρ c s s1 _ e hte _ he (q := .hash160) (U := .buff 20) ⟨rfl, .inl ⟨.inl rfl, h1⟩⟩ rfl
end

/-! ### A contract with these words -/

/-- `(define-read-only (digest (n (buff 8))) (sha256 n))` -/
def wmDigest : FunDef := ⟨[(cxN, .buff 8)], .buff 32, .ro, false, .mem .sha256 (.buff 8) (.var cxN)⟩

/-- `(define-read-only (name (n int)) (int-to-ascii (* n n)))` -/
def wmName : FunDef := ⟨[(cxN, .int)], .ascii 40, .ro, false,
  .mem .intToAscii .int (.nary .mul (.cons .int (.var cxN) (.cons .int (.var cxN) .nil)))⟩

/-- The data of the library is where the library expects it, the name of the variable after it. -/
def wmK : Ctx := { cxK with
  fns := [wmDigest, wmName]
  off := fun bs => if bs = cxT then 1352 else (stdData.find? fun d => d.2 == bs).elim 0 fun d => d.1
  lits := cxT :: stdData.map (·.2)
  ws := 369 }

/-- The memory after instantiation. -/
def wmMem : Mem where
  size := 65536
  byte i := if i < 1352 then stdByte i else if i = 1352 then 116#8 else 0#8
  le := by decide

def wmStore : Store World :=
  { (withHost ledgerStore (put ledgerStore.host (cxSt 9))) with mem := wmMem, g32 := fun _ => 1360#32 }

theorem wm_std : StdIn wmK := by
  have h : (stdData.all fun d => decide (d.2 ≠ cxT) && (stdData.find? fun d' => d'.2 == d.2).elim 0 (fun d => d.1) == d.1) = true := by
    decide +kernel
  intro d hd
  have h := List.all_eq_true.1 h d hd
  simp only [Bool.and_eq_true, decide_eq_true_eq, beq_iff_eq] at h
  refine ⟨List.mem_cons_of_mem _ (List.mem_map.2 ⟨d, hd, rfl⟩), ?_⟩
  show (if d.2 = cxT then 1352 else _) = _
  rw [if_neg h.1]
  exact h.2

theorem wm_lits : LitOk wmK wmStore.mem (below (sp wmStore)) := by
  have h : (stdData.all fun d => decide (d.1 + d.2.length ≤ 1360) && bytesAt wmMem d.1 d.2.length == d.2) = true := by
    decide +kernel
  intro bs hb
  rcases List.mem_cons.1 hb with rfl | hb
  · exact ⟨⟨by decide +kernel, fun _ _ _ h => h⟩, by decide +kernel⟩
  · obtain ⟨d, hd, rfl⟩ := List.mem_map.1 hb
    have h := List.all_eq_true.1 h d hd
    simp only [Bool.and_eq_true, decide_eq_true_eq, beq_iff_eq] at h
    have e : wmK.off d.2 = d.1 := (wm_std d hd).2
    simp only [e]
    exact ⟨⟨h.1, fun _ _ _ h => h⟩, h.2⟩

theorem wm_ok : ContractOk wmK where
  fns k f h := by
    match k, h with
    | 0, h =>
      obtain rfl : wmDigest = f := Option.some.inj h
      refine ⟨?_, by simp [wmDigest], by simp [wmDigest], by simp [wmDigest]⟩
      simp [wmDigest, wt, look, Fit.refl]
      exact ⟨wm_std, rfl, .inr ⟨8, rfl, by decide, by decide⟩⟩
    | 1, h =>
      obtain rfl : wmName = f := Option.some.inj h
      refine ⟨?_, by simp [wmName], by simp [wmName], by simp [wmName]⟩
      simp [wmName, wt, wts, IntTy, Gen.tys, look, Fit.refl]
      exact ⟨wm_std, show memTy wmK .intToAscii .int (.ascii 40) from ⟨.inl rfl, 40, by decide, by decide, rfl⟩, trivial⟩
    | k + 2, h => simp [wmK] at h
  vars := cx_ok.vars
  maps := cx_ok.maps

theorem wm_outside {j : Nat} {f : FunDef} {vs : List Value} (hw : f.writes = false)
    (hc : vs.length = f.params.length) (ht : ∀ a ∈ passed f vs, a.1.WF ∧ ArgTy a.1 ∧ HasType a.1 a.2)
    (hr : f.ret.WF ∧ ArgTy f.ret)
    (hm : sp wmStore + ((passed f vs).map fun a => typeInMemorySize false a.1).sum +
      ((passed f vs).map fun a => argIn a.1 a.2).sum + reserve f.ret + need wmK (j + 1) ≤ wmStore.mem.size) :
    Outside wmK j f cxCx ledgerStore.host (cxSt 9) wmStore vs where
  cx := { cx_ready.cx with writable := fun h => by rw [hw] at h; cases h }
  host := rfl
  st := ⟨(cx_st 9 (by decide)).vars, (cx_st 9 (by decide)).maps, (cx_st 9 (by decide)).fts⟩
  lits := wm_lits
  count := hc
  typed := ht
  ret := hr
  room := hm
  small := by decide

/-- `(digest 0x616263)` is the published digest of "abc". -/
example (sig : List Byte → Option Ty) (a : Reply) :
    Calls sig (moduleOf wmK) 0 (.buff 32) [(.buff 8, .buff [97#8, 98#8, 99#8])] wmStore a ↔
      a = .value (.buff [
        0xba#8, 0x78#8, 0x16#8, 0xbf#8, 0x8f#8, 0x01#8, 0xcf#8, 0xea#8, 0x41#8, 0x41#8, 0x40#8,
        0xde#8, 0x5d#8, 0xae#8, 0x22#8, 0x23#8, 0xb0#8, 0x03#8, 0x61#8, 0xa3#8, 0x96#8, 0x17#8,
        0x7a#8, 0x9c#8, 0xb4#8, 0x10#8, 0xff#8, 0x61#8, 0xf2#8, 0x00#8, 0x15#8, 0xad#8]) (put ledgerStore.host (cxSt 9)) := by
  have h := C46_call_from_outside_partial sig wmK (moduleOf wmK) wm_ok (linked_moduleOf wmK) 0 wmDigest rfl cxCx _ _ _ _
    (wm_outside (vs := [.buff [97#8, 98#8, 99#8]]) rfl rfl (by
      intro a h
      simp only [passed, wmDigest, List.map_cons, List.map_nil, List.zip_cons_cons, List.zip_nil_left, List.mem_cons,
        List.not_mem_nil, or_false] at h
      subst h
      simp [Ty.WF, ArgTy, HasType]) (by simp [wmDigest, Ty.WF, ArgTy]) (by decide +kernel))
  have hr : ∀ bs, wmDigest.run (sem wmK.fns 0) [.buff bs] cxCx (cxSt 9) =
      .val (.buff (sha256F.digest bs)) (cxSt 9) := by
    intro bs
    simp [wmDigest, FunDef.run, eval, Env.get, Out.bind, Out.body, MWord.eval, hashInput, Ans.ofOption, Ans.out]
  rw [hr, sha256_abc] at h
  exact h a

/-- `(name -12)` is "144". -/
example (sig : List Byte → Option Ty) (a : Reply) :
    Calls sig (moduleOf wmK) 1 (.ascii 40) [(.int, .int (-12))] wmStore a ↔
      a = .value (.ascii [49#8, 52#8, 52#8]) (put ledgerStore.host (cxSt 9)) := by
  have h := C46_call_from_outside_partial sig wmK (moduleOf wmK) wm_ok (linked_moduleOf wmK) 1 wmName rfl cxCx _ _ _ _
    (wm_outside (vs := [.int (-12)]) rfl rfl (by
      intro a h
      simp only [passed, wmName, List.map_cons, List.map_nil, List.zip_cons_cons, List.zip_nil_left, List.mem_cons,
        List.not_mem_nil, or_false] at h
      subst h
      simp [Ty.WF, ArgTy, HasType, IsInt]) (by simp [wmName, Ty.WF, ArgTy]) (by decide +kernel))
  have hr : wmName.run (sem wmK.fns 1) [.int (-12)] cxCx (cxSt 9) =
      .val (.ascii ((intStr 144).map (BitVec.ofNat 8))) (cxSt 9) := by
    simp [wmName, FunDef.run, eval, evals, Env.get, Out.bind, Out.body, NOp.eval, NOp.fold, NOp.bin, IsInt, MWord.eval, numeral,
      Ans.ofOption, Ans.out]
  have hs : intStr 144 = [49, 52, 52] := by
    simp only [intStr, show ¬ (144 : Int) < 0 by decide, if_false]
    exact (decStr_unique [49, 52, 52] (by simp) (by decide) (by simp)).symm
  rw [hr, hs] at h
  exact h a

end Props
