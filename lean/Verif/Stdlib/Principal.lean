import Verif.Stdlib.Valid
import Verif.Stdlib.Sha256
import Verif.Spec.Construct

/-! Runtime library: `principal-construct?` (standard.wat 2145-2391). -/

namespace Wasm
open Spec
variable {σ : Type} {M : Mod σ} {is : List Instr} {stk loc : List Val} {g : Store σ}
  {Q : Res σ → Prop}

theorem nth_eq {l : List Val} {n : Nat} {v : Val} (h : l[n]? = some v) : nth l n = v := by
  have hl : n < l.length := (List.getElem?_eq_some_iff.1 h).1
  rw [nth_of_lt hl] at h
  exact Option.some.inj h

theorem nth_set_self {l : List Val} {n : Nat} {v : Val} (h : n < l.length) : nth (l.set n v) n = v :=
  nth_eq (List.getElem?_set_self h)

theorem nth_set_ne {l : List Val} {n k : Nat} {v : Val} (h : n < l.length) (hk : k ≠ n) :
    nth (l.set k v) n = nth l n := by
  apply nth_eq
  rw [List.getElem?_set_ne hk, nth_of_lt h]

/-- The host says whether it is on mainnet, and changes nothing. -/
def Network (M : Mod σ) (mainnet : Bool) : Prop :=
  ∀ g, M.host .is_in_mainnet [] g = .ret [.i32 (b32 (mainnet = true))] g

theorem runs_is_in_mainnet {net : Bool} (hM : Network M net) :
    Runs M (.host .is_in_mainnet) [] g (.ret [.i32 (b32 (net = true))] g) := by
  rw [runs_iff_call (by simp), call_host, hM]

theorem setWidth_inj (v k : Byte) : v.setWidth 32 = k.setWidth 32 ↔ v = k := by
  constructor
  · intro e
    have := congrArg (BitVec.setWidth 8) e
    simpa using this
  · rintro rfl; rfl

theorem runs_is_version_valid {net : Bool} (hM : Network M net) (v : Byte) :
    Runs M (.std .is_version_valid) [.i32 (v.setWidth 32)] g
      (.ret [.i32 (b32 (v ∈ networkVersions net))] g) := by
  have h := setWidth_inj v
  apply runs_std (by simp)
  wpm [stdFunc, Std.is_version_valid, Std.is_version_valid_body]
  refine (wp_call_runs (args := []) (ps := []) (rs := [.i32]) rfl rfl (runs_is_in_mainnet hM) (by simp)).2 ?_
  have e1 := h 20#8
  have e2 := h 22#8
  have e3 := h 21#8
  have e4 := h 26#8
  simp only [BitVec.reduceSetWidth] at e1 e2 e3 e4
  cases net <;> wpm [callK, b32, e1, e2, e3, e4, Bool.false_eq_true, if_true, if_false]
  all_goals
    simp only [networkVersions, Bool.false_eq_true, if_true, if_false, List.mem_cons, List.not_mem_nil, or_false]
    congr 3
  · by_cases h1 : v = 21#8 <;> by_cases h2 : v = 26#8 <;> simp_all
  · by_cases h1 : v = 20#8 <;> by_cases h2 : v = 22#8 <;> simp_all

/-- The words of an error without a principal. -/
def constructErrW (code : BitVec 64) : List Val :=
  [.i32 0#32, .i32 0#32, .i32 0#32, .i64 code, .i64 0#64, .i32 0#32, .i32 0#32, .i32 0#32]

/-- The words of a principal of `n` bytes at `res`: `ok`, or error 0 with the principal. -/
def constructW (ok : Prop) [Decidable ok] (res n : BitVec 32) : List Val :=
  if ok then [.i32 1#32, .i32 res, .i32 n, .i64 0#64, .i64 0#64, .i32 0#32, .i32 0#32, .i32 0#32]
  else [.i32 0#32, .i32 0#32, .i32 0#32, .i64 0#64, .i64 0#64, .i32 1#32, .i32 res, .i32 n]

theorem call_principal_construct_short {net : Bool} (hM : Network M net) (vo vl ho hl cp co cl res : BitVec 32)
    (hv : vl ≠ 0#32 → vo.toNat < g.mem.size)
    (h : vl = 0#32 ∨ 32 ≤ (g.mem.byte vo.toNat).toNat ∨ hl.toNat < 20) :
    Runs M (.std .principal_construct)
      [.i32 vo, .i32 vl, .i32 ho, .i32 hl, .i32 cp, .i32 co, .i32 cl, .i32 res] g
      (.ret (constructErrW 1#64) g) := by
  apply runs_std (by simp)
  wpm [stdFunc, Std.principal_construct, Std.principal_construct_body]
  by_cases h0 : vl = 0#32
  · rw [if_neg (by simpa using h0)]
    try wpm
    rfl
  · have hv' := hv h0
    rw [if_pos h0]
    wpm [load1]
    have hw : ((g.mem.byte vo.toNat).setWidth 32).toNat = (g.mem.byte vo.toNat).toNat := by
      have := (g.mem.byte vo.toNat).isLt
      rw [BitVec.toNat_setWidth, Nat.mod_eq_of_lt (by omega)]
    by_cases h1 : 32 ≤ (g.mem.byte vo.toNat).toNat
    · wif (by rw [hw]; exact h1)
      try wpm
      rfl
    · wif (by rw [hw]; exact h1)
      try wpm
      refine (wp_call_runs (args := [.i32 ((g.mem.byte vo.toNat).setWidth 32)]) (ps := [.i32]) (rs := [.i32]) rfl rfl
        (runs_is_version_valid hM _) (by simp)).2 ?_
      wpm [callK]
      have h2 : hl.toNat < 20 := by
        rcases h with h | h | h
        · exact absurd h h0
        · exact absurd h h1
        · exact h
      rw [if_neg (not_not.2 h2)]
      try wpm
      rfl

theorem call_principal_construct {net : Bool} (hM : Network M net) (vo vl ho hl cp co cl res : BitVec 32)
    (hl20 : hl.toNat = 20) (hv0 : vl ≠ 0#32) (hv : vo.toNat < g.mem.size)
    (h32 : (g.mem.byte vo.toNat).toNat < 32)
    (hcp : cp = 1#32 ∨ cl = 0#32) (hcl : cl.toNat < 256) (hh : ho.toNat + 20 ≤ g.mem.size)
    (hc : co.toNat + cl.toNat ≤ g.mem.size) (h16 : cl.toNat = 11 → co.toNat + 16 ≤ g.mem.size)
    (hr : res.toNat + 22 + cl.toNat ≤ g.mem.size)
    (hdh : ho.toNat + 20 ≤ res.toNat ∨ res.toNat + 22 + cl.toNat ≤ ho.toNat)
    (hdc : co.toNat + cl.toNat ≤ res.toNat ∨ res.toNat + 22 + cl.toNat ≤ co.toNat ∨ cl.toNat = 0) :
    Call M (.std .principal_construct)
      [.i32 vo, .i32 vl, .i32 ho, .i32 hl, .i32 cp, .i32 co, .i32 cl, .i32 res] g fun r => ∃ m',
      Same g.mem m' res.toNat (22 + cl.toNat) ∧
      if cp = 1#32 ∧ contractName (asciiAt g.mem co.toNat cl.toNat) = false then
        r = .ret (constructErrW 2#64) (g.setMem m')
      else r = .ret (constructW (g.mem.byte vo.toNat ∈ networkVersions net) res (cl + 22#32)) (g.setMem m') ∧
        bytesAt m' res.toNat (22 + cl.toNat) = g.mem.byte vo.toNat :: bytesAt g.mem ho.toNat 20 ++
          BitVec.ofNat 8 cl.toNat :: bytesAt g.mem co.toNat cl.toNat := by
  have hle := g.mem.le
  rw [call_std]
  wpm [stdFunc, Std.principal_construct, Std.principal_construct_body]
  rw [if_pos hv0]
  wpm [load1]
  have hw : ((g.mem.byte vo.toNat).setWidth 32).toNat = (g.mem.byte vo.toNat).toNat := by
    have := (g.mem.byte vo.toNat).isLt
    rw [BitVec.toNat_setWidth, Nat.mod_eq_of_lt (by omega)]
  wif (by rw [hw]; omega)
  try wpm
  refine (wp_call_runs (args := [.i32 ((g.mem.byte vo.toNat).setWidth 32)]) (ps := [.i32]) (rs := [.i32]) rfl rfl
    (runs_is_version_valid hM _) (by simp)).2 ?_
  have e1 : (res + 1#32).toNat = res.toNat + 1 := by rw [BitVec.toNat_add]; simp; omega
  wpm [callK]
  have h20 : ¬ hl.toNat < 20 := by omega
  rw [if_pos h20]
  wpm [e1, hw]
  obtain ⟨m3, hm3⟩ : ∃ m3, m3 = (((g.mem.write res.toNat 1 (g.mem.byte vo.toNat).toNat).copy (res.toNat + 1)
    ho.toNat 20).write (res.toNat + 21) 1 cl.toNat) := ⟨_, rfl⟩
  have hs3 : Same g.mem m3 res.toNat 22 := by
    rw [hm3]
    exact (((same_write ..).mono (by omega) (by omega)).trans ((same_copy ..).mono (by omega) (by omega))).trans
      ((same_write ..).mono (by omega) (by omega))
  have hb3 : bytesAt m3 res.toNat 22 = g.mem.byte vo.toNat :: bytesAt g.mem ho.toNat 20 ++
      [BitVec.ofNat 8 cl.toNat] := by
    have hd : (g.mem.write res.toNat 1 (g.mem.byte vo.toNat).toNat).byte res.toNat = g.mem.byte vo.toNat := by
      simp [Mem.write]
    have hc : bytesAt m3 (res.toNat + 1) 20 = bytesAt g.mem ho.toNat 20 := by
      rw [hm3, bytesAt_same (same_write ..) (by omega), bytesAt_copy, bytesAt_same (same_write ..) (by omega)]
    rw [show (22 : Nat) = (20 + 1) + 1 from rfl, bytesAt, bytesAt_add, hc]
    congr 1
    · rw [hm3, (same_write ..).2 _ (by omega), (same_copy ..).2 _ (by omega), hd]
    · congr 1
      simp only [bytesAt]
      rw [hm3]
      congr 1
      simp [Mem.write]
  rw [← hm3]
  have hver : ∀ ok : Prop, [Decidable ok] → ∀ P : CRes σ → Prop, ∀ g' : Store σ,
      (if ¬ ok then P (.ret [Val.i32 0#32, Val.i32 0#32, Val.i32 0#32, Val.i64 0#64, Val.i64 0#64, Val.i32 1#32, Val.i32 res,
                  Val.i32 (cl + 22#32)] g') else P (.ret [Val.i32 1#32, Val.i32 res, Val.i32 (cl + 22#32), Val.i64 0#64, Val.i64 0#64,
                    Val.i32 0#32, Val.i32 0#32, Val.i32 0#32] g')) ↔ P (.ret (constructW ok res (cl + 22#32)) g') := by
    intro ok _ P g'
    by_cases h : ok <;> simp [h, constructW]
  rw [hver _ (fun r => ∃ m', Same g.mem m' res.toNat (22 + cl.toNat) ∧
      if cp = 1#32 ∧ contractName (asciiAt g.mem co.toNat cl.toNat) = false then
        r = .ret (constructErrW 2#64) (g.setMem m')
      else r = .ret (constructW (g.mem.byte vo.toNat ∈ networkVersions net) res (cl + 22#32)) (g.setMem m') ∧
        bytesAt m' res.toNat (22 + cl.toNat) = g.mem.byte vo.toNat :: (bytesAt g.mem ho.toNat 20 ++
          BitVec.ofNat 8 cl.toNat :: bytesAt g.mem co.toNat cl.toNat))]
  by_cases hp : cp = 1#32
  · rw [if_neg (not_not.2 hp)]
    have hcb : bytesAt m3 co.toNat cl.toNat = bytesAt g.mem co.toNat cl.toNat := by
      by_cases h0 : cl.toNat = 0
      · rw [h0]; rfl
      · exact bytesAt_same hs3 (by omega)
    have hcn : asciiAt m3 co.toNat cl.toNat = asciiAt g.mem co.toNat cl.toNat := by
      simp only [asciiAt]
      rw [hcb]
    have hsz : m3.size = g.mem.size := hs3.1
    refine (wp_call_runs (args := [.i32 co, .i32 cl]) (ps := [.i32, .i32]) (rs := [.i32]) rfl rfl
      (runs_is_valid_contract_name co cl (by simp only [mem_setMem]; omega) (by simp only [mem_setMem]; omega)) (by simp)).2 ?_
    wpm [callK, hcn]
    by_cases hn : contractName (asciiAt g.mem co.toNat cl.toNat) = true
    · rw [if_pos (not_not.2 hn)]
      have hcl0 : cl.toNat ≠ 0 := by
        intro h
        rw [h, asciiAt_zero] at hn
        exact absurd hn (by decide)
      have e22 : (res + 22#32).toNat = res.toNat + 22 := by rw [BitVec.toNat_add]; simp; omega
      wpm [e22]
      rw [hver _ (fun r => ∃ m', Same g.mem m' res.toNat (22 + cl.toNat) ∧
        if cp = 1#32 ∧ contractName (asciiAt g.mem co.toNat cl.toNat) = false then
          r = .ret (constructErrW 2#64) (g.setMem m')
        else r = .ret (constructW (g.mem.byte vo.toNat ∈ networkVersions net) res (cl + 22#32)) (g.setMem m') ∧
          bytesAt m' res.toNat (22 + cl.toNat) = g.mem.byte vo.toNat :: (bytesAt g.mem ho.toNat 20 ++
            BitVec.ofNat 8 cl.toNat :: bytesAt g.mem co.toNat cl.toNat))]
      refine ⟨_, (hs3.mono (by omega) (by omega)).trans ((same_copy m3 (res.toNat + 22) co.toNat cl.toNat).mono
        (by omega) (by omega)), ?_⟩
      rw [if_neg (fun h => by rw [h.2] at hn; cases hn)]
      refine ⟨rfl, ?_⟩
      rw [bytesAt_add, bytesAt_copy, bytesAt_same (same_copy ..) (by omega), hb3, hcb]
      simp
    · rw [if_neg (not_not.2 hn)]
      refine ⟨m3, hs3.mono (by omega) (by omega), ?_⟩
      rw [if_pos ⟨hp, by simpa using hn⟩]
      rfl
  · rw [if_pos hp]
    have h0 : cl = 0#32 := by rcases hcp with h | h; exact absurd h hp; exact h
    subst h0
    refine ⟨m3, hs3, ?_⟩
    rw [if_neg (fun h => hp h.1)]
    exact ⟨rfl, hb3⟩

end Wasm
