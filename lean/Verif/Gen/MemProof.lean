import Verif.Gen.Steps
import Verif.Host.Bytes

/-! Correctness of the emitted memory accesses (`writeMem`, `readMem`). -/

namespace Gen
open Wasm Spec Host

variable {σ : Type} {M : Wasm.Mod σ}

theorem read_lt' (m : Mem) (a n : Nat) : m.read a n < 256 ^ n := by
  induction n generalizing a with
  | zero => simp [Mem.read]
  | succ n ih =>
    have := (m.byte a).isLt; have := ih (a + 1)
    simp only [Mem.read, Nat.pow_succ]; omega

theorem read_congr {m m' : Mem} {a n : Nat} (h : ∀ i, a ≤ i → i < a + n → m'.byte i = m.byte i) :
    m'.read a n = m.read a n := by
  induction n generalizing a with
  | zero => rfl
  | succ n ih =>
    simp only [Mem.read]
    rw [h a (by omega) (by omega), ih fun i h1 h2 => h i (by omega) (by omega)]

theorem read_of_bytes {m : Mem} {a n v : Nat}
    (h : ∀ i, i < n → m.byte (a + i) = BitVec.ofNat 8 (v / 256 ^ i)) : m.read a n = v % 256 ^ n := by
  induction n generalizing a v with
  | zero => simp [Mem.read, Nat.mod_one]
  | succ n ih =>
    simp only [Mem.read]
    rw [ih (a := a + 1) (v := v / 256) (fun i hi => ?_)]
    · have := h 0 (by omega)
      simp only [Nat.add_zero, Nat.pow_zero, Nat.div_one] at this
      rw [this, BitVec.toNat_ofNat, show (256:Nat) ^ (n + 1) = 256 * 256 ^ n by
        rw [Nat.pow_succ, Nat.mul_comm], Nat.mod_mul]
    · have := h (i + 1) (by omega)
      rw [show a + 1 + i = a + (i + 1) by omega, this, Nat.div_div_eq_div_mul,
        show (256:Nat) ^ (i + 1) = 256 * 256 ^ i by rw [Nat.pow_succ, Nat.mul_comm]]

theorem read_write_same (m : Mem) (a n v : Nat) : (m.write a n v).read a n = v % 256 ^ n := by
  apply read_of_bytes
  intro i hi
  simp only [Mem.write]
  rw [if_pos (by omega), show a + i - a = i by omega]

theorem write_out {m : Mem} {a n v i : Nat} (h : i < a ∨ a + n ≤ i) :
    (m.write a n v).byte i = m.byte i := by
  simp only [Mem.write]; rw [if_neg (by omega)]

@[simp] theorem write_size (m : Mem) (a n v : Nat) : (m.write a n v).size = m.size := rfl

theorem read_write_other {m : Mem} {a n v b k : Nat} (h : b + k ≤ a ∨ a + n ≤ b) :
    (m.write a n v).read b k = m.read b k :=
  read_congr fun i h1 h2 => write_out (by omega)

/-- The i32 stored at `a`. -/
def ld32 (m : Mem) (a : Nat) : Val := .i32 (BitVec.ofNat 32 (m.read a 4))
/-- The i64 stored at `a`. -/
def ld64 (m : Mem) (a : Nat) : Val := .i64 (BitVec.ofNat 64 (m.read a 8))

theorem ld32_write (m : Mem) (a : Nat) (v : BitVec 32) : ld32 (m.write a 4 v.toNat) a = .i32 v := by
  simp only [ld32, read_write_same]
  rw [Nat.mod_eq_of_lt (by have := v.isLt; omega)]; simp

theorem ld64_write (m : Mem) (a : Nat) (v : BitVec 64) : ld64 (m.write a 8 v.toNat) a = .i64 v := by
  simp only [ld64, read_write_same]
  rw [Nat.mod_eq_of_lt (by have := v.isLt; omega)]; simp

theorem ld32_other {m : Mem} {a n v b : Nat} (h : b + 4 ≤ a ∨ a + n ≤ b) :
    ld32 (m.write a n v) b = ld32 m b := by simp only [ld32, read_write_other h]

theorem ld64_other {m : Mem} {a n v b : Nat} (h : b + 8 ≤ a ∨ a + n ≤ b) :
    ld64 (m.write a n v) b = ld64 m b := by simp only [ld64, read_write_other h]

mutual
/-- The operand-stack values that the representation of type `T` at address `a` stands for. -/
def loadVals (m : Mem) : Ty → Nat → List Val
  | .noType, _ => [.i32 0#32]
  | .int, a | .uint, a => [ld64 m a, ld64 m (a + 8)]
  | .bool, a => [ld32 m a]
  | .principal, a | .callable _, a | .trait _, a | .traitRef _, a
  | .buff _, a | .ascii _, a | .utf8 _, a | .list _ _, a => [ld32 m a, ld32 m (a + 4)]
  | .opt t, a => ld32 m a :: loadVals m t (a + 4)
  | .resp o e, a => ld32 m a :: (loadVals m o (a + 4) ++ loadVals m e (a + 4 + typeSize o))
  | .tuple fs, a => loadValsF m fs a
def loadValsF (m : Mem) : Fields → Nat → List Val
  | .nil, _ => []
  | .cons _ t fs, a => loadVals m t a ++ loadValsF m fs (a + typeSize t)
end

mutual
/-- Which stack positions of a type carry information (the placeholder of a `NoType` does not). -/
def live : Ty → List Bool
  | .noType => [false]
  | .int | .uint => [true, true]
  | .bool => [true]
  | .principal | .callable _ | .trait _ | .traitRef _
  | .buff _ | .ascii _ | .utf8 _ | .list _ _ => [true, true]
  | .opt t => true :: live t
  | .resp o e => true :: (live o ++ live e)
  | .tuple fs => liveF fs
def liveF : Fields → List Bool
  | .nil => []
  | .cons _ t fs => live t ++ liveF fs
end

/-- `ws` with the positions of `NoType` set to zero. -/
def clean (T : Ty) (ws : List Val) : List Val :=
  List.zipWith (fun l w => if l then w else .i32 0#32) (live T) ws
def cleanF (fs : Fields) (ws : List Val) : List Val :=
  List.zipWith (fun l w => if l then w else .i32 0#32) (liveF fs) ws

mutual
theorem length_live : ∀ T, (live T).length = (wty T).length
  | .noType | .int | .uint | .bool | .principal | .callable _ | .trait _ | .traitRef _
  | .buff _ | .ascii _ | .utf8 _ | .list _ _ => by simp [live, wty]
  | .opt t => by simp [live, wty, length_live t]
  | .resp o e => by simp [live, wty, length_live o, length_live e]
  | .tuple fs => by simp [live, wty, length_liveF fs]
theorem length_liveF : ∀ fs, (liveF fs).length = (wtyF fs).length
  | .nil => by simp [liveF, wtyF]
  | .cons _ t fs => by simp [liveF, wtyF, length_live t, length_liveF fs]
end

mutual
theorem loadVals_ty (m : Mem) : ∀ T a, (loadVals m T a).map Val.ty = wty T
  | .noType, _ | .int, _ | .uint, _ | .bool, _ | .principal, _ | .callable _, _ | .trait _, _
  | .traitRef _, _ | .buff _, _ | .ascii _, _ | .utf8 _, _ | .list _ _, _ => by
    simp [loadVals, wty, ld32, ld64, Val.ty]
  | .opt t, a => by simp [loadVals, wty, loadVals_ty m t, ld32, Val.ty]
  | .resp o e, a => by simp [loadVals, wty, loadVals_ty m o, loadVals_ty m e, ld32, Val.ty]
  | .tuple fs, a => by simp [loadVals, wty, loadVals_tyF m fs]
theorem loadVals_tyF (m : Mem) : ∀ fs a, (loadValsF m fs a).map Val.ty = wtyF fs
  | .nil, _ => rfl
  | .cons _ t fs, a => by simp [loadValsF, wtyF, loadVals_ty m t, loadVals_tyF m fs]
end

theorem ld32_congr {m m' : Mem} {a : Nat} (h : ∀ i, a ≤ i → i < a + 4 → m'.byte i = m.byte i) :
    ld32 m' a = ld32 m a := by simp only [ld32, read_congr h]
theorem ld64_congr {m m' : Mem} {a : Nat} (h : ∀ i, a ≤ i → i < a + 8 → m'.byte i = m.byte i) :
    ld64 m' a = ld64 m a := by simp only [ld64, read_congr h]

mutual
theorem loadVals_congr {m m' : Mem} : ∀ T a,
    (∀ i, a ≤ i → i < a + typeSize T → m'.byte i = m.byte i) → loadVals m' T a = loadVals m T a
  | .noType, _, _ => rfl
  | .int, a, h | .uint, a, h => by
    simp only [typeSize] at h
    simp only [loadVals]
    rw [ld64_congr fun i h1 h2 => h i (by omega) (by omega),
      ld64_congr fun i h1 h2 => h i (by omega) (by omega)]
  | .bool, a, h => by
    simp only [typeSize] at h
    simp only [loadVals]
    rw [ld32_congr fun i h1 h2 => h i (by omega) (by omega)]
  | .principal, a, h | .callable _, a, h | .trait _, a, h
  | .traitRef _, a, h | .buff _, a, h | .ascii _, a, h | .utf8 _, a, h | .list _ _, a, h => by
    simp only [typeSize] at h
    simp only [loadVals]
    rw [ld32_congr fun i h1 h2 => h i (by omega) (by omega),
      ld32_congr fun i h1 h2 => h i (by omega) (by omega)]
  | .opt t, a, h => by
    simp only [typeSize] at h
    simp only [loadVals]
    rw [ld32_congr fun i h1 h2 => h i (by omega) (by omega),
      loadVals_congr t _ fun i h1 h2 => h i (by omega) (by omega)]
  | .resp o e, a, h => by
    simp only [typeSize] at h
    simp only [loadVals]
    rw [ld32_congr fun i h1 h2 => h i (by omega) (by omega),
      loadVals_congr o _ fun i h1 h2 => h i (by omega) (by omega),
      loadVals_congr e _ fun i h1 h2 => h i (by omega) (by omega)]
  | .tuple fs, a, h => by
    simp only [typeSize] at h
    simp only [loadVals]
    exact loadVals_congrF fs a h
theorem loadVals_congrF {m m' : Mem} : ∀ fs a,
    (∀ i, a ≤ i → i < a + fieldsSize fs → m'.byte i = m.byte i) → loadValsF m' fs a = loadValsF m fs a
  | .nil, _, _ => rfl
  | .cons _ t fs, a, h => by
    simp only [fieldsSize] at h
    simp only [loadValsF]
    rw [loadVals_congr t _ fun i h1 h2 => h i (by omega) (by omega),
      loadVals_congrF fs _ fun i h1 h2 => h i (by omega) (by omega)]
end

/-! Reading -/

mutual
theorem readMem_sz (ol : Nat) : ∀ T off, (readMem ol T off).sz = typeSize T
  | .noType, _ | .int, _ | .uint, _ | .bool, _ | .principal, _ | .callable _, _ | .trait _, _
  | .traitRef _, _ | .buff _, _ | .ascii _, _ | .utf8 _, _ | .list _ _, _ => by
    simp [readMem, typeSize]
  | .opt t, a => by simp [readMem, typeSize, readMem_sz ol t]
  | .resp o e, a => by simp [readMem, typeSize, readMem_sz ol o, readMem_sz ol e]
  | .tuple fs, a => by simp [readMem, typeSize, readMem_szF ol fs]
theorem readMem_szF (ol : Nat) : ∀ fs off adj, (readMemF ol fs off adj).sz = adj + fieldsSize fs
  | .nil, _, _ => by simp [readMemF, fieldsSize]
  | .cons _ t fs, off, adj => by
    simp [readMemF, fieldsSize, readMem_sz ol t, readMem_szF ol fs]; omega
end

theorem steps_load32 {ol off : Nat} {a : BitVec 32} {stk loc : List Val} {g : Store σ}
    (h : loc[ol]? = some (.i32 a)) (hb : a.toNat + off + 4 ≤ g.mem.size) :
    Steps M (load32 ol off) stk loc g (ld32 g.mem (a.toNat + off) :: stk) loc g :=
  (steps_get h).cons (Steps.b (by simp [stepB, hb, ld32]))

theorem steps_load64 {ol off : Nat} {a : BitVec 32} {stk loc : List Val} {g : Store σ}
    (h : loc[ol]? = some (.i32 a)) (hb : a.toNat + off + 8 ≤ g.mem.size) :
    Steps M (load64 ol off) stk loc g (ld64 g.mem (a.toNat + off) :: stk) loc g :=
  (steps_get h).cons (Steps.b (by simp [stepB, hb, ld64]))

mutual
theorem steps_readMem {ol : Nat} {a : BitVec 32} {loc : List Val} {g : Store σ}
    (h : loc[ol]? = some (.i32 a)) : ∀ (T : Ty) (off : Nat) (stk : List Val),
    a.toNat + off + typeSize T ≤ g.mem.size →
    Steps M (readMem ol T off).is stk loc g ((loadVals g.mem T (a.toNat + off)).reverse ++ stk) loc g
  | .noType, _, stk, _ => Steps.b rfl
  | .int, off, stk, hb | .uint, off, stk, hb => by
    simp only [typeSize] at hb
    have := (steps_load64 (M := M) (stk := stk) h (by omega : a.toNat + off + 8 ≤ g.mem.size)).append
      (steps_load64 h (by omega : a.toNat + (off + 8) + 8 ≤ g.mem.size))
    simpa [readMem, loadVals, Nat.add_assoc] using this
  | .bool, off, stk, hb => by
    simp only [typeSize] at hb
    have := steps_load32 (M := M) (stk := stk) h (by omega : a.toNat + off + 4 ≤ g.mem.size)
    simpa [readMem, loadVals] using this
  | .principal, off, stk, hb | .callable _, off, stk, hb | .trait _, off, stk, hb
  | .traitRef _, off, stk, hb | .buff _, off, stk, hb | .ascii _, off, stk, hb
  | .utf8 _, off, stk, hb | .list _ _, off, stk, hb => by
    simp only [typeSize] at hb
    have := (steps_load32 (M := M) (stk := stk) h (by omega : a.toNat + off + 4 ≤ g.mem.size)).append
      (steps_load32 h (by omega : a.toNat + (off + 4) + 4 ≤ g.mem.size))
    simpa [readMem, loadVals, Nat.add_assoc] using this
  | .opt t, off, stk, hb => by
    simp only [typeSize] at hb
    have := (steps_load32 (M := M) (stk := stk) h (by omega : a.toNat + off + 4 ≤ g.mem.size)).append
      (steps_readMem h t (off + 4) _ (by omega))
    simpa [readMem, loadVals, Nat.add_assoc] using this
  | .resp o e, off, stk, hb => by
    simp only [typeSize] at hb
    have := ((steps_load32 (M := M) (stk := stk) h (by omega : a.toNat + off + 4 ≤ g.mem.size)).append
      (steps_readMem h o (off + 4) _ (by omega))).append
      (steps_readMem h e (off + (4 + typeSize o)) _ (by omega))
    simpa [readMem, loadVals, Nat.add_assoc, readMem_sz] using this
  | .tuple fs, off, stk, hb => by
    simp only [typeSize] at hb
    have := steps_readMemF h fs off 0 stk (by omega)
    simpa [readMem, loadVals] using this
theorem steps_readMemF {ol : Nat} {a : BitVec 32} {loc : List Val} {g : Store σ}
    (h : loc[ol]? = some (.i32 a)) : ∀ (fs : Fields) (off adj : Nat) (stk : List Val),
    a.toNat + (off + adj) + fieldsSize fs ≤ g.mem.size →
    Steps M (readMemF ol fs off adj).is stk loc g
      ((loadValsF g.mem fs (a.toNat + (off + adj))).reverse ++ stk) loc g
  | .nil, _, _, stk, _ => Steps.refl
  | .cons _ t fs, off, adj, stk, hb => by
    simp only [fieldsSize] at hb
    have := (steps_readMem (g := g) h t (off + adj) stk (by omega)).append
      (steps_readMemF h fs off (adj + typeSize t) _ (by omega))
    simpa [readMemF, loadValsF, Nat.add_assoc, readMem_sz] using this
end

/-! Writing -/

mutual
theorem writeMem_sz (ol : Nat) : ∀ T off n, (writeMem ol T off n).sz = typeSize T
  | .noType, _, _ | .int, _, _ | .uint, _, _ | .bool, _, _ | .principal, _, _ | .callable _, _, _
  | .trait _, _, _ | .traitRef _, _, _ | .buff _, _, _ | .ascii _, _, _ | .utf8 _, _, _
  | .list _ _, _, _ => by simp [writeMem, typeSize]
  | .opt t, _, _ => by simp [writeMem, typeSize, writeMem_sz ol t]
  | .resp o e, _, _ => by simp [writeMem, typeSize, writeMem_sz ol o, writeMem_sz ol e]; omega
  | .tuple fs, _, _ => by simp [writeMem, typeSize, writeMem_szF ol fs]
theorem writeMem_szF (ol : Nat) : ∀ fs off n, (writeMemF ol fs off n).sz = fieldsSize fs
  | .nil, _, _ => by simp [writeMemF, fieldsSize]
  | .cons _ t fs, _, _ => by
    simp [writeMemF, fieldsSize, writeMem_sz ol t, writeMem_szF ol fs]; omega
end

theorem steps_store32 {ol off l : Nat} {a v : BitVec 32} {stk loc : List Val} {g : Store σ}
    (h : loc[ol]? = some (.i32 a)) (hv : loc[l]? = some (.i32 v))
    (hb : a.toNat + off + 4 ≤ g.mem.size) :
    Steps M (store32 ol off l) stk loc g stk loc (g.setMem (g.mem.write (a.toNat + off) 4 v.toNat)) :=
  (steps_get h).cons ((steps_get hv).cons (Steps.b (by simp [stepB, hb])))

theorem steps_store64 {ol off l : Nat} {a : BitVec 32} {v : BitVec 64} {stk loc : List Val}
    {g : Store σ} (h : loc[ol]? = some (.i32 a)) (hv : loc[l]? = some (.i64 v))
    (hb : a.toNat + off + 8 ≤ g.mem.size) :
    Steps M (store64 ol off l) stk loc g stk loc (g.setMem (g.mem.write (a.toNat + off) 8 v.toNat)) :=
  (steps_get h).cons ((steps_get hv).cons (Steps.b (by simp [stepB, hb])))

/-- What storing a value does. -/
structure Stored (M : Wasm.Mod σ) (c : Code) (n : Nat) (stk : List Val) (loc : List Val) (g : Store σ)
    (ws : List Val) (lo size : Nat) (loc' : List Val) (m' : Mem) : Prop where
  steps : Steps M c.is (ws.reverse ++ stk) loc g stk loc' (g.setMem m')
  len : loc'.length = loc.length
  keep : ∀ i, i < n ∨ n + c.ls.length ≤ i → loc'[i]? = loc[i]?
  msize : m'.size = g.mem.size
  out : ∀ i, i < lo ∨ lo + size ≤ i → m'.byte i = g.mem.byte i

theorem ty_i32 {w : Val} (h : w.ty = .i32) : ∃ v, w = .i32 v := by cases w <;> simp_all [Val.ty]
theorem ty_i64 {w : Val} (h : w.ty = .i64) : ∃ v, w = .i64 v := by cases w <;> simp_all [Val.ty]

theorem typed2 {ws : List Val} {t u : VT} (h : ws.map Val.ty = [t, u]) :
    ∃ v w, ws = [v, w] ∧ v.ty = t ∧ w.ty = u := by
  match ws, h with
  | [v, w], h => exact ⟨v, w, rfl, by simpa using h⟩

theorem typed_cons {ws : List Val} {t : VT} {ts : List VT} (h : ws.map Val.ty = t :: ts) :
    ∃ v vs, ws = v :: vs ∧ v.ty = t ∧ vs.map Val.ty = ts := by
  cases ws with
  | nil => simp at h
  | cons v vs => exact ⟨v, vs, rfl, by simpa using h⟩

/-- A tag saved in local `l` and stored. -/
theorem steps_tag {ol off l : Nat} {a v : BitVec 32} {stk loc : List Val} {g : Store σ}
    (h : loc[ol]? = some (.i32 a)) (hl : l < loc.length) (hne : ol ≠ l)
    (hb : a.toNat + off + 4 ≤ g.mem.size) :
    Steps M (.b (.localSet l) :: store32 ol off l) (.i32 v :: stk) loc g stk (loc.set l (.i32 v))
      (g.setMem (g.mem.write (a.toNat + off) 4 v.toNat)) :=
  (steps_set hl).cons (steps_store32 (by rw [List.getElem?_set_ne (Ne.symm hne)]; exact h)
    (by simp [hl]) hb)

theorem stored_pair {ol off n : Nat} {a : BitVec 32} {stk loc : List Val} {g : Store σ}
    (h : loc[ol]? = some (.i32 a)) (hol : ol < n) (hn : n + 2 ≤ loc.length)
    (hb : a.toNat + off + 8 ≤ g.mem.size) (v w : BitVec 32) :
    ∃ loc' m', Stored M ⟨[.b (.localSet (n + 1)), .b (.localSet n)] ++ store32 ol off n ++
        store32 ol (off + 4) (n + 1), [.i32, .i32], 8⟩ n stk loc g [.i32 v, .i32 w]
        (a.toNat + off) 8 loc' m' ∧
      ld32 m' (a.toNat + off) = .i32 v ∧ ld32 m' (a.toNat + off + 4) = .i32 w := by
  refine ⟨(loc.set (n + 1) (.i32 w)).set n (.i32 v), (g.mem.write (a.toNat + off) 4 v.toNat).write
    (a.toNat + (off + 4)) 4 w.toNat, ⟨?_, by simp, ?_, rfl, ?_⟩, ?_, ?_⟩
  · have h' : ((loc.set (n + 1) (.i32 w)).set n (.i32 v))[ol]? = some (.i32 a) := by
      rw [List.getElem?_set_ne (by omega), List.getElem?_set_ne (by omega)]; exact h
    have s1 : Steps M [.b (.localSet (n + 1)), .b (.localSet n)] (.i32 w :: .i32 v :: stk) loc g stk
        ((loc.set (n + 1) (.i32 w)).set n (.i32 v)) g :=
      (steps_set (by omega)).cons (steps_set (by simp; omega))
    have s2 := steps_store32 (M := M) (stk := stk) (g := g) h' (l := n) (v := v)
      (by rw [List.getElem?_set_self (by simp; omega)]) (by omega : a.toNat + off + 4 ≤ g.mem.size)
    have s3 := steps_store32 (M := M) (stk := stk)
      (g := g.setMem (g.mem.write (a.toNat + off) 4 v.toNat)) h' (l := n + 1) (v := w)
      (by rw [List.getElem?_set_ne (by omega), List.getElem?_set_self (by omega)])
      (off := off + 4) (by show _ ≤ g.mem.size; omega)
    exact (s1.append s2).append s3
  · intro i hi
    simp only [List.length_cons, List.length_nil] at hi
    rw [List.getElem?_set_ne (by omega), List.getElem?_set_ne (by omega)]
  · intro i hi; rw [write_out (by omega), write_out (by omega)]
  · rw [ld32_other (by omega), ld32_write]
  · rw [Nat.add_assoc, ld32_write]

theorem stored_int {ol off n : Nat} {a : BitVec 32} {stk loc : List Val} {g : Store σ}
    (h : loc[ol]? = some (.i32 a)) (hol : ol < n) (hn : n + 2 ≤ loc.length)
    (hb : a.toNat + off + 16 ≤ g.mem.size) (v w : BitVec 64) :
    ∃ loc' m', Stored M ⟨[.b (.localSet n), .b (.localSet (n + 1))] ++ store64 ol off (n + 1) ++
        store64 ol (off + 8) n, [.i64, .i64], 16⟩ n stk loc g [.i64 v, .i64 w]
        (a.toNat + off) 16 loc' m' ∧
      ld64 m' (a.toNat + off) = .i64 v ∧ ld64 m' (a.toNat + off + 8) = .i64 w := by
  refine ⟨(loc.set n (.i64 w)).set (n + 1) (.i64 v), (g.mem.write (a.toNat + off) 8 v.toNat).write
    (a.toNat + (off + 8)) 8 w.toNat, ⟨?_, by simp, ?_, rfl, ?_⟩, ?_, ?_⟩
  · have h' : ((loc.set n (.i64 w)).set (n + 1) (.i64 v))[ol]? = some (.i32 a) := by
      rw [List.getElem?_set_ne (by omega), List.getElem?_set_ne (by omega)]; exact h
    have s1 : Steps M [.b (.localSet n), .b (.localSet (n + 1))] (.i64 w :: .i64 v :: stk) loc g stk
        ((loc.set n (.i64 w)).set (n + 1) (.i64 v)) g :=
      (steps_set (by omega)).cons (steps_set (by simp; omega))
    have s2 := steps_store64 (M := M) (stk := stk) (g := g) h' (l := n + 1) (v := v)
      (by rw [List.getElem?_set_self (by simp; omega)]) (by omega : a.toNat + off + 8 ≤ g.mem.size)
    have s3 := steps_store64 (M := M) (stk := stk)
      (g := g.setMem (g.mem.write (a.toNat + off) 8 v.toNat)) h' (l := n) (v := w)
      (by rw [List.getElem?_set_ne (by omega), List.getElem?_set_self (by omega)])
      (off := off + 8) (by show _ ≤ g.mem.size; omega)
    exact (s1.append s2).append s3
  · intro i hi
    simp only [List.length_cons, List.length_nil] at hi
    rw [List.getElem?_set_ne (by omega), List.getElem?_set_ne (by omega)]
  · intro i hi; rw [write_out (by omega), write_out (by omega)]
  · rw [ld64_other (by omega), ld64_write]
  · rw [Nat.add_assoc, ld64_write]

/-- Two stores one after the other. -/
theorem Stored.append {c d : Code} {n k lo size lo' size' : Nat} {stk loc loc1 loc2 : List Val} {g : Store σ}
    {vs ws : List Val} {m1 m2 : Mem} {L S : Nat} {r : List VT}
    (h : Stored M c n (vs.reverse ++ stk) loc g ws lo' size' loc1 m1)
    (h' : Stored M d (n + c.ls.length) stk loc1 (g.setMem m1) vs lo size loc2 m2)
    (hL : L ≤ lo ∧ L ≤ lo' ∧ lo + size ≤ L + S ∧ lo' + size' ≤ L + S) (hr : r = c.ls ++ d.ls) :
    Stored M ⟨c.is ++ d.is, r, k⟩ n stk loc g (vs ++ ws) L S loc2 m2 where
  steps := by
    have := h.steps.append h'.steps
    simpa [Store.setMem] using this
  len := h'.len.trans h.len
  keep i hi := by
    subst hr
    simp only [List.length_append] at hi
    rw [h'.keep i (by omega), h.keep i (by omega)]
  msize := h'.msize.trans h.msize
  out i hi := by
    rw [h'.out i (by omega)]; exact h.out i (by omega)

/-- A store followed by the store of a tag. -/
theorem Stored.tag {c : Code} {n lo size ol off k : Nat} {a v : BitVec 32} {stk loc loc1 : List Val} {g : Store σ}
    {ws : List Val} {m1 : Mem} {L S : Nat} {r : List VT}
    (h : Stored M c n (.i32 v :: stk) loc g ws lo size loc1 m1)
    (ho : loc[ol]? = some (.i32 a)) (hol : ol < n) (hn : n + c.ls.length + 1 ≤ loc.length)
    (hb : a.toNat + off + 4 ≤ g.mem.size)
    (hL : L ≤ lo ∧ L ≤ a.toNat + off ∧ lo + size ≤ L + S ∧ a.toNat + off + 4 ≤ L + S)
    (hr : r = c.ls ++ [.i32]) :
    Stored M ⟨c.is ++ .b (.localSet (n + c.ls.length)) :: store32 ol off (n + c.ls.length), r, k⟩ n stk loc g
      (.i32 v :: ws) L S (loc1.set (n + c.ls.length) (.i32 v)) (m1.write (a.toNat + off) 4 v.toNat) where
  steps := by
    have := h.steps.append (steps_tag (M := M) (g := g.setMem m1) (l := n + c.ls.length) (v := v) (stk := stk)
      (by rw [h.keep ol (by omega)]; exact ho) (by rw [h.len]; omega) (by omega)
      (by simp only [Store.setMem, h.msize]; exact hb))
    simpa [Store.setMem] using this
  len := by simp [h.len]
  keep i hi := by
    subst hr
    simp only [List.length_append, List.length_cons, List.length_nil] at hi
    rw [List.getElem?_set_ne (by omega), h.keep i (by omega)]
  msize := h.msize
  out i hi := by
    rw [write_out (by omega)]; exact h.out i (by omega)

theorem clean_append_aux {x y : List Bool} {vs ws : List Val} (h : vs.length = x.length) :
    List.zipWith (fun l w => if l then w else (.i32 0#32 : Val)) (x ++ y) (vs ++ ws) =
      List.zipWith (fun l w => if l then w else (.i32 0#32 : Val)) x vs ++
      List.zipWith (fun l w => if l then w else (.i32 0#32 : Val)) y ws :=
  List.zipWith_append h.symm

theorem typed_append {ws : List Val} {ts us : List VT} (h : ws.map Val.ty = ts ++ us) :
    ∃ v w, ws = v ++ w ∧ v.map Val.ty = ts ∧ w.map Val.ty = us := by
  obtain ⟨v, w, rfl, h1, h2⟩ := List.map_eq_append_iff.1 h
  exact ⟨v, w, rfl, h1, h2⟩

theorem typed_length {ws : List Val} {ts : List VT} (h : ws.map Val.ty = ts) : ws.length = ts.length := by
  rw [← h]; simp

mutual
theorem stored_writeMem {ol : Nat} {a : BitVec 32} : ∀ (T : Ty) (off n : Nat) (stk loc : List Val)
    (g : Store σ) (ws : List Val), loc[ol]? = some (.i32 a) → ol < n →
    n + (writeMem ol T off n).ls.length ≤ loc.length →
    a.toNat + off + typeSize T ≤ g.mem.size → ws.map Val.ty = wty T →
    ∃ loc' m', Stored M (writeMem ol T off n) n stk loc g ws (a.toNat + off) (typeSize T) loc' m' ∧
      loadVals m' T (a.toNat + off) = clean T ws
  | .noType, off, n, stk, loc, g, ws, h, hol, hn, hb, hw => by
    simp only [wty] at hw
    obtain ⟨v, vs, rfl, hv, hvs⟩ := typed_cons hw
    obtain rfl : vs = [] := by simpa using hvs
    refine ⟨loc, g.mem.write (a.toNat + off) 4 0, ⟨?_, rfl, fun _ _ => rfl, rfl, ?_⟩, rfl⟩
    · refine Steps.cons (Steps.b (s1 := stk) (l1 := loc) (g1 := g) (by simp [stepB])) (Steps.cons (steps_get h) (Steps.cons steps_const (Steps.b ?_)))
      simp only [typeSize] at hb
      simp [stepB, hb]
    · intro i hi; simp only [typeSize] at hi; rw [write_out (by omega)]
  | .int, off, n, stk, loc, g, ws, h, hol, hn, hb, hw
  | .uint, off, n, stk, loc, g, ws, h, hol, hn, hb, hw => by
    simp only [wty] at hw
    obtain ⟨v, w, rfl, hv, hw'⟩ := typed2 hw
    obtain ⟨v, rfl⟩ := ty_i64 hv
    obtain ⟨w, rfl⟩ := ty_i64 hw'
    obtain ⟨loc', m', h1, h2, h3⟩ := stored_int (M := M) (stk := stk) h hol (by simpa [writeMem] using hn)
      (by simpa [typeSize] using hb) v w
    exact ⟨loc', m', h1, by simp [loadVals, clean, live, h2, h3]⟩
  | .bool, off, n, stk, loc, g, ws, h, hol, hn, hb, hw => by
    simp only [wty] at hw
    obtain ⟨v, vs, rfl, hv, hvs⟩ := typed_cons hw
    obtain ⟨v, rfl⟩ := ty_i32 hv
    obtain rfl : vs = [] := by simpa using hvs
    simp only [typeSize] at hb
    have hn : n + 1 ≤ loc.length := by simpa [writeMem] using hn
    refine ⟨loc.set n (.i32 v), g.mem.write (a.toNat + off) 4 v.toNat, ⟨?_, by simp, ?_, rfl, ?_⟩, ?_⟩
    · exact steps_tag h (by omega) (by omega) hb
    · intro i hi
      simp only [writeMem, List.length_cons, List.length_nil] at hi
      rw [List.getElem?_set_ne (by omega)]
    · intro i hi; simp only [typeSize] at hi; rw [write_out (by omega)]
    · simp [loadVals, clean, live, ld32_write]
  | .principal, off, n, stk, loc, g, ws, h, hol, hn, hb, hw
  | .callable _, off, n, stk, loc, g, ws, h, hol, hn, hb, hw
  | .trait _, off, n, stk, loc, g, ws, h, hol, hn, hb, hw
  | .traitRef _, off, n, stk, loc, g, ws, h, hol, hn, hb, hw
  | .buff _, off, n, stk, loc, g, ws, h, hol, hn, hb, hw
  | .ascii _, off, n, stk, loc, g, ws, h, hol, hn, hb, hw
  | .utf8 _, off, n, stk, loc, g, ws, h, hol, hn, hb, hw
  | .list _ _, off, n, stk, loc, g, ws, h, hol, hn, hb, hw => by
    simp only [wty] at hw
    obtain ⟨v, w, rfl, hv, hw'⟩ := typed2 hw
    obtain ⟨v, rfl⟩ := ty_i32 hv
    obtain ⟨w, rfl⟩ := ty_i32 hw'
    obtain ⟨loc', m', h1, h2, h3⟩ := stored_pair (M := M) (stk := stk) h hol (by simpa [writeMem] using hn)
      (by simpa [typeSize] using hb) v w
    exact ⟨loc', m', h1, by simp [loadVals, clean, live, h2, h3]⟩
  | .opt t, off, n, stk, loc, g, ws, h, hol, hn, hb, hw => by
    simp only [wty] at hw
    obtain ⟨v, vs, rfl, hv, hvs⟩ := typed_cons hw
    obtain ⟨v, rfl⟩ := ty_i32 hv
    simp only [typeSize] at hb
    simp only [writeMem, List.length_append, List.length_cons, List.length_nil] at hn
    obtain ⟨loc1, m1, h1, h2⟩ := stored_writeMem t (off + 4) n (.i32 v :: stk) loc g vs h hol (by omega) (by omega) hvs
    refine ⟨_, _, h1.tag (k := 4 + (writeMem ol t (off + 4) n).sz) (off := off) (a := a) h hol (by omega) (by omega)
      (L := a.toNat + off) (S := typeSize (.opt t)) (by simp only [typeSize]; omega) rfl, ?_⟩
    simp only [loadVals, clean, live, List.zipWith_cons_cons, if_true]
    rw [ld32_write, loadVals_congr t (m := m1) _ (fun i h1 h2 => write_out (by omega))]
    rw [Nat.add_assoc, h2]; rfl
  | .resp o e, off, n, stk, loc, g, ws, h, hol, hn, hb, hw => by
    simp only [wty] at hw
    obtain ⟨v, vs, rfl, hv, hvs⟩ := typed_cons hw
    obtain ⟨v, rfl⟩ := ty_i32 hv
    obtain ⟨vo, ve, rfl, ho, he⟩ := typed_append hvs
    simp only [typeSize] at hb
    simp only [writeMem, List.length_append, List.length_cons, List.length_nil] at hn
    obtain ⟨loc1, m1, h1, h1'⟩ := stored_writeMem e (off + 4 + typeSize o) n (vo.reverse ++ .i32 v :: stk) loc g ve h hol
      (by omega) (by omega) he
    obtain ⟨loc2, m2, h2, h2'⟩ := stored_writeMem (ol := ol) (a := a) o (off + 4)
      (n + (writeMem ol e (off + 4 + typeSize o) n).ls.length) (.i32 v :: stk) loc1 (g.setMem m1) vo
      (by rw [h1.keep ol (by omega)]; exact h) (by omega) (by rw [h1.len]; omega)
      (by simp only [Store.setMem, h1.msize]; omega) ho
    have h12 := h1.append h2 (k := 0) (L := a.toNat + off + 4) (S := typeSize o + typeSize e)
      (by omega) rfl
    have h13 := h12.tag (k := (writeMem ol (.resp o e) off n).sz) (off := off) (a := a) h hol
      (by simp only [List.length_append]; omega) (by omega)
      (L := a.toNat + off) (S := typeSize (.resp o e)) (by simp only [typeSize]; omega) rfl
    refine ⟨loc2.set (n + ((writeMem ol e (off + 4 + typeSize o) n).ls ++
      (writeMem ol o (off + 4) (n + (writeMem ol e (off + 4 + typeSize o) n).ls.length)).ls).length) (.i32 v),
      m2.write (a.toNat + off) 4 v.toNat, ?_, ?_⟩
    · simpa only [writeMem, List.length_append, Nat.add_assoc] using h13
    · simp only [loadVals, clean, live, List.zipWith_cons_cons, if_true]
      rw [clean_append_aux (by rw [length_live, typed_length ho])]
      rw [ld32_write, loadVals_congr o (m := m2) _ (fun i h1 h2 => write_out (by omega)),
        loadVals_congr e (m := m2) _ (fun i h1 h2 => write_out (by omega)),
        loadVals_congr e (m := m1) _ (fun i h1 h3 => h2.out i (by omega))]
      rw [Nat.add_assoc a.toNat off 4, h2', Nat.add_assoc, h1']; rfl
  | .tuple fs, off, n, stk, loc, g, ws, h, hol, hn, hb, hw => by
    simp only [wty] at hw
    simp only [typeSize] at hb
    simp only [writeMem] at hn
    obtain ⟨loc', m', h1, h2⟩ := stored_writeMemF fs off n stk loc g ws h hol hn hb hw
    exact ⟨loc', m', by simpa only [typeSize, writeMem] using h1, by simpa only [loadVals, clean, live, cleanF] using h2⟩
theorem stored_writeMemF {ol : Nat} {a : BitVec 32} : ∀ (fs : Fields) (off n : Nat) (stk loc : List Val)
    (g : Store σ) (ws : List Val), loc[ol]? = some (.i32 a) → ol < n →
    n + (writeMemF ol fs off n).ls.length ≤ loc.length →
    a.toNat + off + fieldsSize fs ≤ g.mem.size → ws.map Val.ty = wtyF fs →
    ∃ loc' m', Stored M (writeMemF ol fs off n) n stk loc g ws (a.toNat + off) (fieldsSize fs) loc' m' ∧
      loadValsF m' fs (a.toNat + off) = cleanF fs ws
  | .nil, off, n, stk, loc, g, ws, h, hol, hn, hb, hw => by
    obtain rfl : ws = [] := by simpa [wtyF] using hw
    exact ⟨loc, g.mem, ⟨Steps.refl, rfl, fun _ _ => rfl, rfl, fun _ _ => rfl⟩, rfl⟩
  | .cons k t fs, off, n, stk, loc, g, ws, h, hol, hn, hb, hw => by
    simp only [wtyF] at hw
    obtain ⟨vt, vf, rfl, ht, hf⟩ := typed_append hw
    simp only [fieldsSize] at hb
    simp only [writeMemF, List.length_append] at hn
    obtain ⟨loc1, m1, h1, h1'⟩ := stored_writeMemF fs (off + typeSize t) n (vt.reverse ++ stk) loc g vf h hol
      (by omega) (by omega) hf
    obtain ⟨loc2, m2, h2, h2'⟩ := stored_writeMem (ol := ol) (a := a) t off
      (n + (writeMemF ol fs (off + typeSize t) n).ls.length) stk loc1 (g.setMem m1) vt
      (by rw [h1.keep ol (by omega)]; exact h) (by omega) (by rw [h1.len]; omega)
      (by simp only [Store.setMem, h1.msize]; omega) ht
    have h12 := h1.append h2 (k := (writeMemF ol (.cons k t fs) off n).sz) (L := a.toNat + off)
      (S := fieldsSize (.cons k t fs)) (by simp only [fieldsSize]; omega) rfl
    refine ⟨_, _, h12, ?_⟩
    simp only [loadValsF, cleanF, liveF]
    rw [clean_append_aux (by rw [length_live, typed_length ht])]
    rw [h2', loadVals_congrF fs (m := m1) _ (fun i h1 h3 => h2.out i (by omega)), Nat.add_assoc, h1']; rfl
end

end Gen
