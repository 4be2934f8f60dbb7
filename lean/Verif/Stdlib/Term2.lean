import Verif.Stdlib.Term
import Verif.Stdlib.Pow
import Verif.Stdlib.Sqrt

set_option linter.unusedSimpArgs false

/-! Termination of the library functions with loops. -/

namespace Wasm

variable {σ : Type} {M : Mod σ}

/-- A local as a number. -/
def n32 (l : List Val) (k : Nat) : BitVec 32 := match nth l k with | .i32 x => x | _ => 0
def n64 (l : List Val) (k : Nat) : BitVec 64 := match nth l k with | .i64 x => x | _ => 0

theorem b32_ne {p : Prop} [Decidable p] : b32 p ≠ 0#32 ↔ p := by unfold b32; split <;> simp [*]

theorem b32_eq {p : Prop} [Decidable p] : b32 p = 0#32 ↔ ¬p := by unfold b32; split <;> simp [*]

theorem dec_lt {x : BitVec 32} (h : x - 1#32 ≠ 0#32) : (x - 1#32 - 1#32).toNat < (x - 1#32).toNat := by bv_omega

theorem dec2_lt {x : BitVec 32} (h : ¬x.toNat < 2) (h' : ¬x - 2#32 = 0#32) : (x - 2#32 - 1#32).toNat < (x - 1#32).toNat := by bv_omega
theorem dec3_lt {x : BitVec 32} (h : ¬x.toNat < 3) (h' : ¬x - 3#32 = 0#32) : (x - 3#32 - 1#32).toNat < (x - 1#32).toNat := by bv_omega
theorem dec4_lt {x : BitVec 32} (h : ¬x.toNat < 4) (h' : ¬x - 4#32 = 0#32) : (x - 4#32 - 1#32).toNat < (x - 1#32).toNat := by bv_omega
theorem b32_and_left {p : Prop} [Decidable p] {y : BitVec 32} (h : ¬(b32 p &&& y) = 0#32) : p := by
  by_contra hp
  apply h
  simp [b32, hp]

/-- A loop with locals of the types `ts`, whose measure is `μ`. -/
syntax "vloop" term:max term:max : tactic
macro_rules
  | `(tactic| vloop $ts $m) => `(tactic| (
      refine vc_loop (fun l => tys l = $ts) $m (by first | rfl | assumption) ?_
      simp only [List.replicate, List.cons_append, List.nil_append, tys_all_nil, tys_all_i32, tys_all_i64]
      intros
      vcgo))

/-- Closes the goals of a loop: types are kept, the measure decreases. -/
syntax "vdec" : tactic
macro_rules
  | `(tactic| vdec) => `(tactic| (
      refine ⟨rfl, ?_⟩
      simp only [n32, n64, nth, List.getElem?_cons_succ, List.getElem?_cons_zero, Option.getD_some]
      first
      | with_reducible exact dec_lt (by assumption)
      | with_reducible exact dec_lt (b32_and_left (by assumption))
      | with_reducible exact dec2_lt (by assumption) (by assumption)
      | with_reducible exact dec3_lt (by assumption) (by assumption)
      | with_reducible exact dec4_lt (by assumption) (by assumption)
      | (simp only [IBin.eval, IRel.eval, b32_eq, b32_ne, ne_eq, Classical.not_not] at *
         bv_omega)
      | bv_omega))

theorem term_lt_buff (hV : M.Valid) : Terminates M (.std .lt_buff) := by
  refine terminates_of_vc hV (known_terminates hV (L := []) (by simp)) _ ?_
  simp only [stdFunc, Std.lt_buff, tys_all_nil, tys_all_i32]
  intros
  vcx [Std.lt_buff_body]
  vcgo
  all_goals
    vloop (List.replicate 6 .i32) (fun l => (n32 l 4 - 1#32).toNat)
    vdec

theorem term_gt_buff (hV : M.Valid) : Terminates M (.std .gt_buff) := by
  refine terminates_of_vc hV (known_terminates hV (L := []) (by simp)) _ ?_
  simp only [stdFunc, Std.gt_buff, tys_all_nil, tys_all_i32]
  intros
  vcx [Std.gt_buff_body]
  vcgo
  all_goals
    vloop (List.replicate 6 .i32) (fun l => (n32 l 4 - 1#32).toNat)
    vdec

theorem term_le_buff (hV : M.Valid) : Terminates M (.std .le_buff) := by
  refine terminates_of_vc hV (known_terminates hV (L := []) (by simp)) _ ?_
  simp only [stdFunc, Std.le_buff, tys_all_nil, tys_all_i32]
  intros
  vcx [Std.le_buff_body]
  vcgo
  all_goals
    vloop (List.replicate 6 .i32) (fun l => (n32 l 4 - 1#32).toNat)
    vdec

theorem term_ge_buff (hV : M.Valid) : Terminates M (.std .ge_buff) := by
  refine terminates_of_vc hV (known_terminates hV (L := []) (by simp)) _ ?_
  simp only [stdFunc, Std.ge_buff, tys_all_nil, tys_all_i32]
  intros
  vcx [Std.ge_buff_body]
  vcgo
  all_goals
    vloop (List.replicate 6 .i32) (fun l => (n32 l 4 - 1#32).toNat)
    vdec

theorem xor1_lt {x : BitVec 32} (h : ¬x &&& 1#32 = 0#32) : (x ^^^ 1#32).toNat < x.toNat := by
  have h1 : x.toNat % 2 = 1 := by
    rcases Nat.mod_two_eq_zero_or_one x.toNat with h0 | h0
    · exact absurd (BitVec.eq_of_toNat_eq (by simpa [Nat.and_one_is_mod] using h0)) h
    · exact h0
  have := xor1_odd x h1
  omega

theorem term_pow_inner (hV : M.Valid) : Terminates M (.std .pow_inner) := by
  refine terminates_of_vc hV (known_terminates hV (L := []) (by simp)) _ ?_
  simp only [stdFunc, Std.pow_inner, tys_all_nil, tys_all_i32, tys_all_i64]
  intros
  refine vc_at 4 (fun s l => s = [] ∧ tys l = [.i64, .i64, .i32, .i64, .i64]) ?_ ?_
  · vcx [Std.pow_inner_body]
    vcgo
  rintro s l ⟨rfl, hl⟩
  vloop [.i64, .i64, .i32, .i64, .i64] (fun l => (n32 l 2).toNat)
  · refine ⟨rfl, ?_⟩
    rename_i h
    simp only [BitVec.toNat_ushiftRight] at h
    simp only [n32, nth, List.getElem?_cons_succ, List.getElem?_cons_zero, Option.getD_some, BitVec.toNat_ushiftRight]
    omega
  · refine ⟨rfl, ?_⟩
    rename_i h1 _ _ h
    exact xor1_lt h1

theorem term_working_vars (hV : M.Valid) : Terminates M (.std .working_vars) := by
  refine terminates_of_vc hV (known_terminates hV (L := []) (by simp)) _ ?_
  simp only [stdFunc, Std.working_vars, tys_all_nil, tys_all_i32, tys_all_i64]
  intros
  refine vc_at 28 (fun s l => s = [] ∧ tys l = (List.replicate 12 .i32)) ?_ ?_
  · vcx [Std.working_vars_body]
    vcgo
  rintro s l ⟨rfl, hl⟩
  vloop (List.replicate 12 .i32) (fun l => 256 - (n32 l 11 + 4#32).toNat)
  all_goals vdec

theorem term_is_valid_string_ascii (hV : M.Valid) : Terminates M (.std .is_valid_string_ascii) := by
  refine terminates_of_vc hV (known_terminates hV (L := []) (by simp)) _ ?_
  simp only [stdFunc, Std.is_valid_string_ascii, tys_all_nil, tys_all_i32, tys_all_i64]
  intros
  refine vc_at 0 (fun s l => s = [] ∧ tys l = (List.replicate 4 .i32)) ?_ ?_
  · vcx [Std.is_valid_string_ascii_body]
    vcgo
  rintro s l ⟨rfl, hl⟩
  vloop (List.replicate 4 .i32) (fun l => (n32 l 1).toNat)
  all_goals vdec

theorem term_compare_clarity_names (hV : M.Valid) : Terminates M (.std .compare_clarity_names) := by
  refine terminates_of_vc hV (known_terminates hV (L := []) (by simp)) _ ?_
  simp only [stdFunc, Std.compare_clarity_names, tys_all_nil, tys_all_i32, tys_all_i64]
  intros
  refine vc_at 7 (fun s l => s = [] ∧ tys l = (List.replicate 7 .i32)) ?_ ?_
  · vcx [Std.compare_clarity_names_body]
    vcgo
  rintro s l ⟨rfl, hl⟩
  vloop (List.replicate 7 .i32) (fun l => (n32 l 4 - 1#32).toNat)
  all_goals vdec

theorem term_calculate_sha512 (hV : M.Valid) : Terminates M (.std .calculate_sha512) := by
  refine terminates_of_vc hV (known_terminates hV (L := []) (by simp)) _ ?_
  simp only [stdFunc, Std.calculate_sha512, tys_all_nil, tys_all_i32, tys_all_i64]
  intros
  refine vc_at 28 (fun s l => s = [] ∧ tys l = ([.i32, .i32] ++ List.replicate 10 .i64)) ?_ ?_
  · vcx [Std.calculate_sha512_body]
    vcgo
  rintro s l ⟨rfl, hl⟩
  vloop ([.i32, .i32] ++ List.replicate 10 .i64) (fun l => 640 - (n32 l 1 + 8#32).toNat)
  all_goals vdec

theorem term_is_valid_contract_name (hV : M.Valid) : Terminates M (.std .is_valid_contract_name) := by
  refine terminates_of_vc hV (known_terminates hV (L := []) (by simp)) _ ?_
  simp only [stdFunc, Std.is_valid_contract_name, tys_all_nil, tys_all_i32, tys_all_i64]
  intros
  refine vc_at 16 (fun s l => s = [] ∧ tys l = (List.replicate 3 .i32)) ?_ ?_
  · vcx [Std.is_valid_contract_name_body]
    vcgo
  rintro s l ⟨rfl, hl⟩
  vloop (List.replicate 3 .i32) (fun l => (n32 l 2 - n32 l 0).toNat)
  all_goals vdec

theorem term_block64 (hV : M.Valid) : Terminates M (.std .block64) := by
  refine terminates_of_vc hV (known_terminates hV (L := []) (by simp)) _ ?_
  simp only [stdFunc, Std.block64, tys_all_nil, tys_all_i32, tys_all_i64]
  intros
  refine vc_at 11 (fun s l => s = [] ∧ tys l = (List.replicate 4 .i32)) ?_ ?_
  · refine vc_at 8 (fun s l => s = [] ∧ tys l = (List.replicate 4 .i32)) ?_ ?_
    · vcx [Std.block64_body]
      vcgo
    rintro s l ⟨rfl, hl⟩
    vloop (List.replicate 4 .i32) (fun l => 64 - (n32 l 2 + 16#32).toNat)
    all_goals first | exact ⟨rfl, rfl⟩ | vdec
  rintro s l ⟨rfl, hl⟩
  vloop (List.replicate 4 .i32) (fun l => 192 - (n32 l 2 + 4#32).toNat)
  all_goals vdec

theorem term_process_sha512_block (hV : M.Valid) : Terminates M (.std .process_sha512_block) := by
  refine terminates_of_vc hV (known_terminates hV (L := []) (by simp)) _ ?_
  simp only [stdFunc, Std.process_sha512_block, tys_all_nil, tys_all_i32, tys_all_i64]
  intros
  refine vc_at 11 (fun s l => s = [] ∧ tys l = [.i32, .i32, .i32, .i64, .i32]) ?_ ?_
  · refine vc_at 8 (fun s l => s = [] ∧ tys l = [.i32, .i32, .i32, .i64, .i32]) ?_ ?_
    · vcx [Std.process_sha512_block_body]
      vcgo
    rintro s l ⟨rfl, hl⟩
    vloop [.i32, .i32, .i32, .i64, .i32] (fun l => 128 - (n32 l 4 + 16#32).toNat)
    all_goals first | exact ⟨rfl, rfl⟩ | vdec
  rintro s l ⟨rfl, hl⟩
  vloop [.i32, .i32, .i32, .i64, .i32] (fun l => 512 - (n32 l 4 + 8#32).toNat)
  all_goals vdec

theorem term_string_to_uint (hV : M.Valid) : Terminates M (.std .string_to_uint) := by
  refine terminates_of_vc hV (known_terminates hV (L := []) (by simp)) _ ?_
  simp only [stdFunc, Std.string_to_uint, tys_all_nil, tys_all_i32, tys_all_i64]
  intros
  refine vc_at 10 (fun s l => s = [] ∧ tys l = [.i32, .i32, .i64, .i64, .i64]) ?_ ?_
  · refine vc_at 6 (fun s l => s = [] ∧ tys l = [.i32, .i32, .i64, .i64, .i64]) ?_ ?_
    · vcx [Std.string_to_uint_body]
      vcgo
    rintro s l ⟨rfl, hl⟩
    vloop [.i32, .i32, .i64, .i64, .i64] (fun l => (n32 l 1 - 1#32).toNat)
    all_goals first | exact ⟨rfl, rfl⟩ | vdec
  rintro s l ⟨rfl, hl⟩
  vloop [.i32, .i32, .i64, .i64, .i64] (fun l => (n32 l 1 - 1#32).toNat)
  all_goals vdec

theorem term_utf8_to_string_utf8 (hV : M.Valid) : Terminates M (.std .utf8_to_string_utf8) := by
  refine terminates_of_vc hV (known_terminates hV (L := []) (by simp)) _ ?_
  simp only [stdFunc, Std.utf8_to_string_utf8, tys_all_nil, tys_all_i32, tys_all_i64]
  intros
  refine vc_at 5 (fun s l => s = [] ∧ tys l = (List.replicate 7 .i32)) ?_ ?_
  · vcx [Std.utf8_to_string_utf8_body]
    vcgo
  rintro s l ⟨rfl, hl⟩
  refine vc_loop (fun l => tys l = (List.replicate 7 .i32)) (fun l => (n32 l 3).toNat) hl ?_
  simp only [List.replicate, List.cons_append, List.nil_append, tys_all_nil, tys_all_i32, tys_all_i64]
  intro a b c d e f h
  by_cases hd : (d - 1#32).toInt < 0
  · vcx
    simp only [hd, if_true]
  · have hlt : (d - 1#32).toNat < d.toNat := by
      rw [BitVec.toInt_eq_toNat_cond] at hd
      have := d.isLt
      split at hd <;> bv_omega
    vcx
    simp only [hd, if_false]
    clear hd
    repeat' vcstep
    all_goals exact ⟨rfl, hlt⟩

theorem term_check_clarity_name (hV : M.Valid) : Terminates M (.std .check_clarity_name) := by
  refine terminates_of_vc hV (known_terminates hV (L := []) (by simp)) _ ?_
  simp only [stdFunc, Std.check_clarity_name, tys_all_nil, tys_all_i32, tys_all_i64]
  intros
  vcx [Std.check_clarity_name_body]
  vcgo
  all_goals
    vloop (List.replicate 3 .i32) (fun l => (n32 l 1 - 1#32).toNat)
    all_goals vdec

set_option maxHeartbeats 1000000 in
theorem term_skip_string_utf8 (hV : M.Valid) : Terminates M (.std .skip_string_utf8) := by
  refine terminates_of_vc hV (known_terminates hV (L := []) (by simp)) _ ?_
  simp only [stdFunc, Std.skip_string_utf8, tys_all_nil, tys_all_i32, tys_all_i64]
  intros
  refine vc_at 18 (fun s l => s = [] ∧ tys l = List.replicate 5 .i32) ?_ ?_
  · vcx [Std.skip_string_utf8_body]
    vcgo
  rintro s l ⟨rfl, hl⟩
  revert l
  simp only [List.replicate, tys_all_nil, tys_all_i32, tys_all_i64]
  intros
  refine vc_at 1 (fun s l => s = [] ∧ tys l = List.replicate 5 .i32) ?_ ?_
  · vcx [Std.skip_string_utf8_body]
    vcgo
    vloop (List.replicate 5 .i32) (fun l => (n32 l 2 - 1#32).toNat)
    all_goals first | exact ⟨rfl, rfl⟩ | vdec
  · rintro s l ⟨rfl, hl⟩
    revert l
    simp only [List.replicate, tys_all_nil, tys_all_i32, tys_all_i64]
    intros
    vcgo

theorem half_sum {lo hi : BitVec 32} (h : lo.toNat ≤ hi.toNat) :
    (lo + (hi - lo) >>> 1).toNat = lo.toNat + (hi.toNat - lo.toNat) / 2 := by
  have h1 : (hi - lo).toNat = hi.toNat - lo.toNat := by bv_omega
  have h2 : ((hi - lo) >>> 1).toNat = (hi.toNat - lo.toNat) / 2 := by
    rw [BitVec.toNat_ushiftRight, h1, Nat.shiftRight_eq_div_pow]
  rw [BitVec.toNat_add, h2]
  have := hi.isLt
  omega

theorem bs_step {lo hi m : BitVec 32} {p q : Prop} [Decidable p] [Decidable q] (hle : lo.toNat ≤ hi.toNat)
    (hs : lo.toNat < hi.toNat ∨ hi.toNat = 0) (hpq : ¬(p ∧ q))
    (hm : m.toNat = lo.toNat + (hi.toNat - lo.toNat) / 2)
    (h : (if p then lo else m + 1#32).toNat < (if q then hi else m).toNat) :
    (if p then lo else m + 1#32).toNat ≤ (if q then hi else m).toNat ∧
    ((if p then lo else m + 1#32).toNat < (if q then hi else m).toNat ∨ (if q then hi else m).toNat = 0) ∧
    (if q then hi else m).toNat - (if p then lo else m + 1#32).toNat < hi.toNat - lo.toNat := by
  refine ⟨by omega, Or.inl h, ?_⟩
  by_cases hp : p <;> by_cases hq : q <;> simp only [hp, hq, if_true, if_false, and_self, not_true] at h hpq ⊢ <;> bv_omega

theorem term_bsearch_clarity_name (hV : M.Valid) : Terminates M (.std .bsearch_clarity_name) := by
  refine terminates_of_vc hV (known_terminates hV (L := [.compare_clarity_names]) (by simpa using term_compare_clarity_names hV)) _ ?_
  simp only [stdFunc, Std.bsearch_clarity_name, tys_all_nil, tys_all_i32, tys_all_i64]
  intros
  refine vc_at 14 (fun s l => s = [] ∧ tys l = List.replicate 10 .i32 ∧ (n32 l 5).toNat ≤ (n32 l 6).toNat ∧ ((n32 l 5).toNat < (n32 l 6).toNat ∨ (n32 l 6).toNat = 0) ∧ n32 l 4 = n32 l 6 - n32 l 5) ?_ ?_
  · vcx [Std.bsearch_clarity_name_body]
    vcgo
    all_goals exact ⟨trivial, rfl, by simp [n32, nth], (by simp only [n32, nth, List.getElem?_cons_succ, List.getElem?_cons_zero, Option.getD_some]; bv_omega), by simp [n32, nth]⟩
  rintro s l ⟨rfl, hl⟩
  refine vc_loop (fun l => tys l = List.replicate 10 .i32 ∧ (n32 l 5).toNat ≤ (n32 l 6).toNat ∧ ((n32 l 5).toNat < (n32 l 6).toNat ∨ (n32 l 6).toNat = 0) ∧ n32 l 4 = n32 l 6 - n32 l 5)
    (fun l => (n32 l 6).toNat - (n32 l 5).toNat) hl ?_
  simp only [and_imp]
  simp only [List.replicate, List.cons_append, List.nil_append, tys_all_nil, tys_all_i32, tys_all_i64]
  intro a b c d sz lo hi x y z hle hs hsz
  have hle' : lo.toNat ≤ hi.toNat := hle
  have hsz' : sz = hi - lo := hsz
  subst hsz'
  have hm := half_sum hle'
  have hlt := hi.isLt
  have hs' : lo.toNat < hi.toNat ∨ hi.toNat = 0 := hs
  clear hle hs hsz
  repeat' first
    | exact trivial
    | vcx
    | (refine vc_call rfl (Known.mem (by decide)) rfl ?_; vcsig; intros)
    | refine ite_prop (fun _ => ?_) (fun _ => ?_)
    | intro
  rename_i hx
  obtain ⟨h1, h2, h3⟩ := bs_step hle' hs' (by rintro ⟨rfl, h⟩; exact absurd h (by decide)) hm hx
  exact ⟨⟨rfl, h1, h2, rfl⟩, h3⟩

theorem shr2_lt {x y : BitVec 64} (h : y.toNat < x.toNat) : (x >>> 2).toNat < x.toNat := by
  rw [BitVec.toNat_ushiftRight, Nat.shiftRight_eq_div_pow]
  omega

theorem quarter_lt {bl bh : BitVec 64} (h : ¬bh <<< 62 ||| bl >>> 2 ||| bh >>> 2 = 0#64) :
    u128 (bh <<< 62 ||| bl >>> 2) (bh >>> 2) < u128 bl bh := by
  rw [quarter_halves]
  have : u128 bl bh ≠ 0 := by
    intro h0
    unfold u128 at h0
    have e1 : bl = 0#64 := BitVec.eq_of_toNat_eq (by simp; omega)
    have e2 : bh = 0#64 := BitVec.eq_of_toNat_eq (by simp; omega)
    subst e1 e2
    exact h (by decide)
  omega

theorem term_sqrti_uint (hV : M.Valid) : Terminates M (.std .sqrti_uint) := by
  refine terminates_of_vc hV (known_terminates hV (L := []) (by simp)) _ ?_
  simp only [stdFunc, Std.sqrti_uint, tys_all_nil, tys_all_i32, tys_all_i64]
  intros
  refine vc_at 12 (fun s l => s = [] ∧ tys l = List.replicate 8 .i64) ?_ ?_
  · vcx [Std.sqrti_uint_body]
    vcgo
    · vloop (List.replicate 8 .i64) (fun l => (n64 l 3).toNat)
      all_goals exact ⟨rfl, shr2_lt ‹_›⟩
    · vloop (List.replicate 8 .i64) (fun l => (n64 l 2).toNat)
      all_goals exact ⟨rfl, shr2_lt ‹_›⟩
  rintro s l ⟨rfl, hl⟩
  vloop (List.replicate 8 .i64) (fun l => u128 (n64 l 2) (n64 l 3))
  all_goals exact ⟨rfl, quarter_lt ‹_›⟩

theorem table4 (k : Nat) (f : FId) (h : stdTable k = some f)
    (hs : stdSig f = some ([.i32, .i32, .i32, .i32], [.i32])) : Known [] f := by
  unfold stdTable at h
  split at h <;> cases h <;> first | exact Known.easy (by decide +kernel) | exact absurd hs (by decide)

theorem term_hash160_compress (hV : M.Valid) : Terminates M (.std .hash160_compress) := by
  refine terminates_of_vc hV (known_terminates hV (L := []) (by simp)) _ ?_
  simp only [stdFunc, Std.hash160_compress, tys_all_nil, tys_all_i32, tys_all_i64]
  intros
  refine vc_at 22 (fun s l => s = [] ∧ tys l = List.replicate 18 .i32) ?_ ?_
  · vcx [Std.hash160_compress_body]
    vcgo
  rintro s l ⟨rfl, hl⟩
  refine vc_loop (fun l => tys l = List.replicate 18 .i32) (fun l => 80 - (n32 l 16 + 1#32).toNat) hl ?_
  simp only [List.replicate, tys_all_nil, tys_all_i32]
  intros
  vcgo
  refine vc_callIndirect table4 rfl ?_
  vcsig
  intros
  vcgo
  refine vc_callIndirect table4 rfl ?_
  vcsig
  intros
  vcgo
  all_goals vdec

theorem term_div_uint (hV : M.Valid) : Terminates M (.std .div_uint) := by
  refine terminates_of_vc hV (known_terminates hV (L := [.div_int128]) (by simpa using term_div_int128 hV)) _ ?_
  simp only [stdFunc, Std.div_uint, tys_all_nil, tys_all_i32, tys_all_i64]
  intros
  vcx [Std.div_uint_body]
  vcgo

theorem term_div_int (hV : M.Valid) : Terminates M (.std .div_int) := by
  refine terminates_of_vc hV (known_terminates hV (L := [.div_int128]) (by simpa using term_div_int128 hV)) _ ?_
  simp only [stdFunc, Std.div_int, tys_all_nil, tys_all_i32, tys_all_i64]
  intros
  vcx [Std.div_int_body]
  vcgo

theorem term_mod_uint (hV : M.Valid) : Terminates M (.std .mod_uint) := by
  refine terminates_of_vc hV (known_terminates hV (L := [.div_int128]) (by simpa using term_div_int128 hV)) _ ?_
  simp only [stdFunc, Std.mod_uint, tys_all_nil, tys_all_i32, tys_all_i64]
  intros
  vcx [Std.mod_uint_body]
  vcgo

theorem term_mod_int (hV : M.Valid) : Terminates M (.std .mod_int) := by
  refine terminates_of_vc hV (known_terminates hV (L := [.div_int128]) (by simpa using term_div_int128 hV)) _ ?_
  simp only [stdFunc, Std.mod_int, tys_all_nil, tys_all_i32, tys_all_i64]
  intros
  vcx [Std.mod_int_body]
  vcgo

theorem term_sqrti_int (hV : M.Valid) : Terminates M (.std .sqrti_int) := by
  refine terminates_of_vc hV (known_terminates hV (L := [.sqrti_uint]) (by simpa using term_sqrti_uint hV)) _ ?_
  simp only [stdFunc, Std.sqrti_int, tys_all_nil, tys_all_i32, tys_all_i64]
  intros
  vcx [Std.sqrti_int_body]
  vcgo

theorem term_pow_uint (hV : M.Valid) : Terminates M (.std .pow_uint) := by
  refine terminates_of_vc hV (known_terminates hV (L := [.pow_inner]) (by simpa using term_pow_inner hV)) _ ?_
  simp only [stdFunc, Std.pow_uint, tys_all_nil, tys_all_i32, tys_all_i64]
  intros
  vcx [Std.pow_uint_body]
  vcgo

theorem term_pow_int (hV : M.Valid) : Terminates M (.std .pow_int) := by
  refine terminates_of_vc hV (known_terminates hV (L := [.pow_inner]) (by simpa using term_pow_inner hV)) _ ?_
  simp only [stdFunc, Std.pow_int, tys_all_nil, tys_all_i32, tys_all_i64]
  intros
  vcx [Std.pow_int_body]
  vcgo

theorem term_sha256_int (hV : M.Valid) : Terminates M (.std .sha256_int) := by
  refine terminates_of_vc hV (known_terminates hV (L := [.block64, .working_vars]) (by simpa using ⟨term_block64 hV, term_working_vars hV⟩)) _ ?_
  simp only [stdFunc, Std.sha256_int, tys_all_nil, tys_all_i32, tys_all_i64]
  intros
  vcx [Std.sha256_int_body]
  vcgo

theorem term_hash160_int (hV : M.Valid) : Terminates M (.std .hash160_int) := by
  refine terminates_of_vc hV (known_terminates hV (L := [.hash160_compress, .sha256_int]) (by simpa using ⟨term_hash160_compress hV, term_sha256_int hV⟩)) _ ?_
  simp only [stdFunc, Std.hash160_int, tys_all_nil, tys_all_i32, tys_all_i64]
  intros
  vcx [Std.hash160_int_body]
  vcgo

theorem term_principal_construct (hV : M.Valid) : Terminates M (.std .principal_construct) := by
  refine terminates_of_vc hV (known_terminates hV (L := [.is_valid_contract_name]) (by simpa using term_is_valid_contract_name hV)) _ ?_
  simp only [stdFunc, Std.principal_construct, tys_all_nil, tys_all_i32, tys_all_i64]
  intros
  vcx [Std.principal_construct_body]
  vcgo

theorem term_string_to_int (hV : M.Valid) : Terminates M (.std .string_to_int) := by
  refine terminates_of_vc hV (known_terminates hV (L := [.string_to_uint]) (by simpa using term_string_to_uint hV)) _ ?_
  simp only [stdFunc, Std.string_to_int, tys_all_nil, tys_all_i32, tys_all_i64]
  intros
  vcx [Std.string_to_int_body]
  vcgo

theorem term_sha512_int (hV : M.Valid) : Terminates M (.std .sha512_int) := by
  refine terminates_of_vc hV (known_terminates hV (L := [.calculate_sha512, .process_sha512_block]) (by simpa using ⟨term_calculate_sha512 hV, term_process_sha512_block hV⟩)) _ ?_
  simp only [stdFunc, Std.sha512_int, tys_all_nil, tys_all_i32, tys_all_i64]
  intros
  vcx [Std.sha512_int_body]
  vcgo

theorem term_skip_contract (hV : M.Valid) : Terminates M (.std .skip_contract) := by
  refine terminates_of_vc hV (known_terminates hV (L := [.check_clarity_name]) (by simpa using term_check_clarity_name hV)) _ ?_
  simp only [stdFunc, Std.skip_contract, tys_all_nil, tys_all_i32, tys_all_i64]
  intros
  vcx [Std.skip_contract_body]
  vcgo

theorem term_skip_string_ascii (hV : M.Valid) : Terminates M (.std .skip_string_ascii) := by
  refine terminates_of_vc hV (known_terminates hV (L := [.is_valid_string_ascii]) (by simpa using term_is_valid_string_ascii hV)) _ ?_
  simp only [stdFunc, Std.skip_string_ascii, tys_all_nil, tys_all_i32, tys_all_i64]
  intros
  vcx [Std.skip_string_ascii_body]
  vcgo

end Wasm
