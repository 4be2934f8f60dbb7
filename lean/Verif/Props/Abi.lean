import Verif.Host.ArgsSize

/-! Properties C21, C22, C24: the value ABI between host and contract. -/

namespace Props
open Wasm Spec Host

/-- **C21.** A value written by the host at `off` (in-memory parts at `im`) is read back unchanged,
also after any later change of the memory outside the two regions it was written to; nothing else is
changed. `typeInMemorySize true T` is the space the project reserves for a `T`.
Missing: types with traits inside (see `C21_trait_write_fails`). -/
theorem C21_write_read_partial (T : Ty) (v : Value) (hT : T.WF) (hp : Plain T) (hv : HasType T v)
    (m : Mem) (off im : Nat) (hm : m.size < 2 ^ 31)
    (hoff : off + typeSize T ≤ im) (him : im + (typeInMemorySize true T - typeSize T) ≤ m.size) :
    ∃ m' a b, writeToWasm T off im v true m = some (m', a, b) ∧
      m'.size = m.size ∧
      (∀ i, (i < off ∨ off + a ≤ i) → (i < im ∨ im + b ≤ i) → m'.byte i = m.byte i) ∧
      ∀ m'' : Mem, m''.size = m.size →
        (∀ i, (off ≤ i ∧ i < off + a) ∨ (im ≤ i ∧ i < im + b) → m''.byte i = m'.byte i) →
        readFromWasmIndirect T m'' off = some v := by
  have hs := size_le T v hv
  obtain ⟨m', w, s, o, r⟩ := good T hT hp v off im m hv ⟨by omega, by omega, by omega, by omega⟩
  exact ⟨m', _, _, w, s, o, fun m'' h1 h2 => r m'' h1 (fun i hi hi' => h2 i (.inl ⟨hi, hi'⟩))
    (fun i hi hi' => h2 i (.inr ⟨hi, hi'⟩))⟩

/-- C21 without the restriction is false: a contract seen through a trait, as the host itself
produces it when reading, can never be written back. -/
theorem C21_trait_write_fails (t : TraitId) (v : Value) (h : HasType (.trait t) v) (off im : Nat)
    (r : Bool) (m : Mem) : writeToWasm (.trait t) off im v r m = none := by
  cases v <;> try (exfalso; simp only [HasType] at h; done)
  simp [writeToWasm]

/-- A trait type with a value, the witness for the previous theorem. -/
def abiContract : ContractId := ⟨⟨26#8, List.replicate 20 7#8⟩, [102#8, 111#8, 111#8]⟩
/-- An example trait. -/
def abiTrait : TraitId := ⟨abiContract, [116#8]⟩

theorem abiContract_ok : abiContract.Ok := by
  refine ⟨⟨by decide, by decide⟩, by decide, by decide⟩

example : HasType (.trait abiTrait) (.callable abiContract (some abiTrait)) := ⟨abiContract_ok, rfl⟩

/-- **C22.** Whenever the host writes a value with its representation (`include_repr`), at whatever
addresses, the bytes it reports as used are exactly the representation size of the type plus the
in-memory part, and together never exceed the space computed for the type. -/
theorem C22_written_fits (T : Ty) (v : Value) (hT : T.WF) (hv : HasType T v)
    (m m' : Mem) (off im a b : Nat) (hw : writeToWasm T off im v true m = some (m', a, b)) :
    a = typeSize T ∧ a + b ≤ typeInMemorySize true T := by
  have hs := size_le T v hv
  obtain ⟨rfl, rfl⟩ := write_sizes T v off im m m' a b hT hv hw
  exact ⟨rfl, hs⟩

/-- The space computed *without* representation is too small for a value written without
representation: an optional buffer of one byte takes 13 bytes, 5 are computed. -/
theorem C22_no_repr_too_small (m : Mem) (h : 100 ≤ m.size) (h' : m.size < 2 ^ 31) :
    ∃ m' a b, writeToWasm (.opt (.buff 1)) 0 50 (.some (.buff [1#8])) false m = some (m', a, b) ∧
      a + b = 13 ∧ typeInMemorySize false (.opt (.buff 1)) = 5 := by
  obtain ⟨m', w, _⟩ := good (.opt (.buff 1)) trivial trivial (.some (.buff [1#8])) 0 50 m
    (by simp [HasType]) (by simp [Fits, typeSize, inLen]; omega)
  exact ⟨m', _, _, w, rfl, rfl⟩

/-- **C24.** Passing arguments of the declared types to a function and converting the resulting Wasm
values back at these types gives the same Clarity values, in any memory that still has the
argument area `[sp, top)`; memory below the stack pointer is untouched.
Missing: trait references, lists of traits (see the two counterexamples below). -/
theorem C24_arguments_partial (args : List (Ty × Value))
    (hargs : ∀ a ∈ args, a.1.WF ∧ ArgTy a.1 ∧ HasType a.1 a.2) (m : Mem) (sp : Nat)
    (hm : m.size < 2 ^ 31)
    (hroom : sp + (args.map fun a => typeInMemorySize false a.1).sum +
      (args.map fun a => typeInMemorySize true a.1).sum ≤ m.size) :
    ∃ vals off top m', passArgs args sp m = some (vals, off, top, m') ∧
      m'.size = m.size ∧ (∀ i, i < sp ∨ top ≤ i → m'.byte i = m.byte i) ∧
      ∀ m'' : Mem, m''.size = m.size → (∀ i, sp ≤ i → i < top → m''.byte i = m'.byte i) →
        backFrom (args.map (·.1)) 0 vals m'' = some (args.map (·.2)) := by
  obtain ⟨n, hn⟩ := good_args args hargs
  have h1 := sum_map_le (l := args) (f := fun a => argOff a.1 a.2)
    (g := fun a => typeInMemorySize false a.1) (fun a ha => argOff_le _ _ (hargs a ha).2.2)
  have h2 := sum_map_le (l := args) (f := fun a => argIn a.1 a.2)
    (g := fun a => typeInMemorySize true a.1) (fun a ha => argIn_le _ _ (hargs a ha).2.2)
  obtain ⟨vals, m', a1, a2, a3, a4, a5⟩ := hn sp
    (sp + (args.map fun a => typeInMemorySize false a.1).sum) m ⟨by omega, by omega, hm⟩
  refine ⟨vals, _, _, m', a1, a3, fun i hi => a4 i (by omega) (by omega), ?_⟩
  intro m'' hs h
  have := a5 m'' [] [] hs (fun i hi hi' => h i (by omega) (by omega))
    (fun i hi hi' => h i (by omega) (by omega))
  simpa using this

/-- C24 is false for lists of traits: such an argument is always rejected. -/
theorem C24_list_of_traits_rejected (t : TraitId) (n : Nat) (v : Value) (vs : List Value)
    (h : HasType (.list n (.trait t)) (.list (v :: vs))) (off im : Nat) (m : Mem) :
    passArg (.list n (.trait t)) (.list (v :: vs)) off im m = none := by
  have := h.2 v (List.mem_cons_self ..)
  simp [passArg, writeElems, C21_trait_write_fails t v this]

/-- C24 is false for an absent optional trait reference: the conversion panics. -/
theorem C24_none_trait_ref_panics (t : TraitId) (off im : Nat) (m : Mem) :
    HasType (.opt (.traitRef t)) .none ∧ passArg (.opt (.traitRef t)) .none off im m = none := by
  simp [HasType, passArg, wasmTys]

/-- Non-vacuity: a tuple of an int and an optional list of strings meets all hypotheses. -/
def abiTy : Ty := .tuple (.cons [97#8] .int (.cons [98#8] (.opt (.list 3 (.ascii 5))) .nil))
/-- A value of that type. -/
def abiVal : Value := .tuple [([97#8], .int (-5)), ([98#8], .some (.list [.ascii [104#8, 105#8], .ascii []]))]
/-- A memory of one page. -/
def abiMem : Mem := ⟨65536, fun _ => 170#8, by decide⟩

theorem abiTy_ok : abiTy.WF ∧ Plain abiTy ∧ ArgTy abiTy ∧ HasType abiTy abiVal := by
  refine ⟨⟨by simp, by decide, ?_⟩, ?_, ?_, ?_⟩
  · simp [Fields.WF, Ty.WF]
  · simp [abiTy, Plain, PlainF]
  · simp [abiTy, ArgTy, ArgTyF, Plain]
  · simp only [abiTy, abiVal, HasType, HasFields]
    simp [IsInt, HasType]
    decide

example : ∃ m' a b, writeToWasm abiTy 1000 2000 abiVal true abiMem = some (m', a, b) := by
  obtain ⟨m', a, b, h, _⟩ := C21_write_read_partial abiTy abiVal abiTy_ok.1 abiTy_ok.2.1 abiTy_ok.2.2.2
    abiMem 1000 2000 (by decide) (by decide) (by decide)
  exact ⟨m', a, b, h⟩

example : ∃ vals off top m', passArgs [(abiTy, abiVal), (.bool, .bool true)] 1500 abiMem =
    some (vals, off, top, m') := by
  obtain ⟨vals, off, top, m', h, _⟩ := C24_arguments_partial [(abiTy, abiVal), (.bool, .bool true)] (by
    intro a ha
    simp only [List.mem_cons, List.not_mem_nil, or_false] at ha
    rcases ha with rfl | rfl
    · exact ⟨abiTy_ok.1, abiTy_ok.2.2.1, abiTy_ok.2.2.2⟩
    · exact ⟨trivial, trivial, trivial⟩) abiMem 1500 (by decide) (by decide)
  exact ⟨vals, off, top, m', h⟩

end Props
