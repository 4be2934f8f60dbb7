import Verif.Gen.Copy
import Verif.Gen.DesProof2
import Verif.Gen.SeqAt

/-! The code of `copy_value` copies the parts of a value that are in memory. -/

namespace Gen
open Wasm Spec Host Core

variable {σ : Type} {M : Wasm.Mod σ}

mutual
/-- The region does not matter for a value without parts in memory. -/
theorem Rep.flat {m m' : Mem} {b b' : Reg} : ∀ {T : Ty} {v : Value} {ws : List Val}, Flat T → Rep m b T v ws →
    Rep m' b' T v ws
  | .noType, _, _, _, h => by simp [Rep] at h
  | .int, _, _, _, h | .uint, _, _, _, h | .bool, _, _, _, h => by simpa only [Rep] using h
  | .principal, _, _, hf, _ | .callable _, _, _, hf, _ | .trait _, _, _, hf, _ | .traitRef _, _, _, hf, _
  | .buff _, _, _, hf, _ | .ascii _, _, _, hf, _ | .utf8 _, _, _, hf, _ | .list _ _, _, _, hf, _ => hf.elim
  | .opt t, _, _, hf, h => by
    simp only [Rep] at h ⊢
    rcases h with h | ⟨x, us, h1, h2, h⟩
    · exact Or.inl h
    · exact Or.inr ⟨x, us, h1, h2, Rep.flat hf h⟩
  | .resp o e, _, _, hf, h => by
    simp only [Rep] at h ⊢
    rcases h with ⟨x, us, js, h1, h2, h, h'⟩ | ⟨x, us, js, h1, h2, h, h'⟩
    · exact Or.inl ⟨x, us, js, h1, h2, Rep.flat hf.1 h, h'⟩
    · exact Or.inr ⟨x, us, js, h1, h2, Rep.flat hf.2 h, h'⟩
  | .tuple fs, _, _, hf, h => by
    simp only [Rep] at h ⊢
    obtain ⟨kvs, h1, h⟩ := h
    exact ⟨kvs, h1, RepF.flat hf h⟩
theorem RepF.flat {m m' : Mem} {b b' : Reg} : ∀ {fs : Fields} {kvs : List (Name × Value)} {ws : List Val},
    Flat.FlatF fs → RepF m b fs kvs ws → RepF m' b' fs kvs ws
  | .nil, _, _, _, h => by simpa only [RepF] using h
  | .cons k t fs, _, _, hf, h => by
    simp only [RepF] at h ⊢
    obtain ⟨x, r, us, vs, h1, h2, h, h'⟩ := h
    exact ⟨x, r, us, vs, h1, h2, Rep.flat hf.1 h, RepF.flat hf.2 h'⟩
end

/-- The copy offset `cv` is in local `c`, with `S` bytes of memory behind it that are not in the region `b`. -/
structure CIn (b : Reg) (ls : List Nat) (c n S : Nat) (cv : BitVec 32) (loc : List Val) (g : Store σ) : Prop where
  vc : nth loc c = .i32 cv
  nodup : ls.Nodup
  lt : ∀ i ∈ ls, i < n
  cn : c < n
  cls : c ∉ ls
  len : n ≤ loc.length
  free : ∀ i, cv.toNat ≤ i → i < cv.toNat + S → b.hole i ∨ b.hi ≤ i
  hi : b.hi ≤ g.mem.size
  room : cv.toNat + S ≤ g.mem.size
  small : g.mem.size < 2 ^ 32

/-- The value is now in the memory from `cv` to `cv'`. -/
structure CFin (R : Mem → Reg → List Val → Prop) (ls : List Nat) (c n S : Nat) (cv : BitVec 32) (loc : List Val) (g : Store σ)
    (ws' loc' : List Val) (m' : Mem) (cv' : BitVec 32) : Prop where
  keep : Keep n (c :: ls) loc loc'
  vals : ls.map (loc'[·]?) = ws'.map some
  vc : nth loc' c = .i32 cv'
  lo : cv.toNat ≤ cv'.toNat
  hi : cv'.toNat ≤ cv.toNat + S
  size : m'.size = g.mem.size
  mem : ∀ i, i < cv.toNat ∨ cv.toNat + S ≤ i → m'.byte i = g.mem.byte i
  rep : R m' (seg cv.toNat cv'.toNat) ws'

/-- The code `a` copies what `R` says is in the locals `ls`. -/
def CG (M : Wasm.Mod σ) (R : Mem → Reg → List Val → Prop) (a : Emit) (ls : List Nat) (c n S : Nat) : Prop :=
  ∀ (b : Reg) (ws : List Val) (cv : BitVec 32) (stk loc : List Val) (g : Store σ),
    CIn b ls c n S cv loc g → ls.map (loc[·]?) = ws.map some → n + a.ls.length ≤ loc.length → R g.mem b ws →
    ∃ (ws' loc' : List Val) (m' : Mem) (cv' : BitVec 32), Steps M a.is stk loc g stk loc' (g.setMem m') ∧
      CFin R ls c n S cv loc g ws' loc' m' cv'

/-- The code `a` copies values of type `T`. -/
def CGood (M : Wasm.Mod σ) (T : Ty) (a : Emit) (ls : List Nat) (c n S : Nat) : Prop :=
  ∀ v, CG M (fun m b ws => Rep m b T v ws) a ls c n S

theorem csteps_of_wp {is : List Instr} {stk loc : List Val} {g : Store σ}
    {P : List Val → List Val → Mem → BitVec 32 → Prop}
    (h : WP M is stk loc g fun r => ∃ ws' loc' m' cv', r = .norm stk loc' (g.setMem m') ∧ P ws' loc' m' cv') :
    ∃ (ws' loc' : List Val) (m' : Mem) (cv' : BitVec 32), Steps M is stk loc g stk loc' (g.setMem m') ∧
      P ws' loc' m' cv' := by
  obtain ⟨n, r, h1, h2, ws', loc', m', cv', rfl, h3⟩ := h
  refine ⟨ws', loc', m', cv', Steps.of_wp fun Q => ?_, h3⟩
  exact wp_of_ends ((ends_iff (by simp)).2 ⟨n, _, h1, h2, rfl⟩) (by simp)

theorem setMem_self (g : Store σ) : g.setMem g.mem = g := rfl

/-- No code is needed for a value without parts in memory. -/
theorem copy_flat {T : Ty} (hf : Flat T) {ls : List Nat} {c n S : Nat} : CGood M T ⟨[], []⟩ ls c n S := by
  intro v b ws cv stk loc g H hw _ hr
  exact ⟨ws, loc, g.mem, cv, Steps.refl, Keep.refl, hw, H.vc, Nat.le_refl _, by omega, rfl, fun _ _ => rfl,
    hr.flat hf⟩

theorem CG.mono {R : Mem → Reg → List Val → Prop} {a : Emit} {ls : List Nat} {c n S S' : Nat}
    (h : CG M R a ls c n S) (hS : S ≤ S') : CG M R a ls c n S' := by
  intro b ws cv stk loc g H hw hl hr
  obtain ⟨vc, nd, lt, cn, cls, len, free, hi, room, small⟩ := H
  obtain ⟨ws', loc', m', cv', st, f⟩ := h b ws cv stk loc g
    ⟨vc, nd, lt, cn, cls, len, fun i h1 h2 => free i h1 (by omega), hi, by omega, small⟩ hw hl hr
  exact ⟨ws', loc', m', cv', st, f.keep, f.vals, f.vc, f.lo, by have := f.hi; omega, f.size,
    fun i hi => f.mem i (by omega), f.rep⟩

theorem two_locals {ls : List Nat} {loc : List Val} {x y : Val} (h : ls.map (loc[·]?) = [x, y].map some) :
    ∃ o l, ls = [o, l] ∧ o < loc.length ∧ l < loc.length ∧ nth loc o = x ∧ nth loc l = y := by
  match ls, h with
  | [], h => simp at h
  | [_], h => simp at h
  | _ :: _ :: _ :: _, h => simp at h
  | [o, l], h =>
    simp only [List.map_cons, List.map_nil, List.cons.injEq, and_true] at h
    have h1 := nth_some h.1
    have h2 := nth_some h.2
    exact ⟨o, l, rfl, h1.1, h2.1, h1.2, h2.2⟩

theorem copy_byte (m : Mem) (d s n : Nat) (i : Nat) :
    (m.copy d s n).byte i = if d ≤ i ∧ i < d + n then m.byte (s + (i - d)) else m.byte i := rfl

/-- `copyBytes`. -/
theorem wp_copyBytes {o l c : Nat} {x y cv : BitVec 32} {rest : List Instr} {stk loc : List Val} {g : Store σ}
    {Q : Res σ → Prop} (vo : nth loc o = .i32 x) (vl : nth loc l = .i32 y) (vc : nth loc c = .i32 cv)
    (ho : o < loc.length) (hl : l < loc.length) (hc : c < loc.length) (h1 : o ≠ l) (h2 : c ≠ o) (h3 : c ≠ l)
    (hx : x.toNat + y.toNat ≤ g.mem.size) (hcv : cv.toNat + y.toNat ≤ g.mem.size) :
    WP M (copyBytes o l c ++ rest) stk loc g Q ↔
      WP M rest stk ((loc.set o (.i32 cv)).set c (.i32 (cv + y))) (g.setMem (g.mem.copy cv.toNat x.toNat y.toNat)) Q := by
  unfold copyBytes lget lset
  simp only [List.cons_append, List.nil_append]
  wpl [vo, vl, vc, wp_memCopy]

/-- Values kept as plain bytes. -/
theorem copy_bytes {T : Ty} (hT : ∀ (m : Mem) b v ws, Rep m b T v ws ↔ HasType T v ∧ BytesIn m b (memBytes v) ws)
    {S : Nat} (hS : ∀ v, HasType T v → (memBytes v).length ≤ S) {ls : List Nat} {c n : Nat} :
    CGood M T ⟨copyBytes (ls.getD 0 0) (ls.getD 1 0) c, []⟩ ls c n S := by
  intro v b ws cv stk loc g H hw hn hr
  obtain ⟨vc, nd, lt, cn, cls, len, free, hi, room, small⟩ := H
  obtain ⟨hv, x, y, rfl, hy, has, hb⟩ := (hT _ _ _ _).1 hr
  obtain ⟨o, l, rfl, ho, hl, vo, vl⟩ := two_locals hw
  have h1 : o ≠ l := by simpa using nd
  have h2 : c ≠ o ∧ c ≠ l := by simpa using cls
  have hlen := hS v hv
  have h3 := has.1
  have e1 : (cv + y).toNat = cv.toNat + y.toNat := by rw [BitVec.toNat_add]; omega
  apply csteps_of_wp
  rw [← List.append_nil (Emit.is _)]
  rw [show (Emit.is ⟨copyBytes ([o, l].getD 0 0) ([o, l].getD 1 0) c, []⟩) = copyBytes o l c from rfl]
  rw [wp_copyBytes vo vl vc ho hl (by omega) h1 h2.1 h2.2 (by omega) (by omega), wp_nil]
  refine ⟨[.i32 cv, .i32 y], _, _, cv + y, rfl, ?_, ?_, ?_, by omega, by omega, rfl, ?_, ?_⟩
  · exact (Keep.refl.set (.inr (by simp))).set (.inr (by simp))
  · rw [List.map_cons, List.map_cons, List.map_nil, nth_of_lt (by simp; exact ho), nth_of_lt (by simp; exact hl)]
    wpl [vl, h2.1.symm]
    rfl
  · wpl
  · intro i hi
    rw [copy_byte, if_neg (by omega)]
  · refine (hT _ _ _ _).2 ⟨hv, cv, y, rfl, hy, ⟨?_, ?_⟩, ?_⟩
    · show _ ≤ (cv + y).toNat
      omega
    · intro i hi _ (hh : i < cv.toNat)
      omega
    · rw [bytesAt_move (m := g.mem) (a := x.toNat)]
      · exact hb
      · intro i hi
        rw [copy_byte, if_pos (by omega), show x.toNat + (cv.toNat + i - cv.toNat) = x.toNat + i by omega]

theorem copy_opt {t : Ty} {a : Emit} {ls : List Nat} {c n S : Nat} (hg : CGood M t a ls.tail c n S) :
    CGood M (.opt t) ⟨[lget (ls.getD 0 0), .ite 0 0 a.is []], a.ls⟩ ls c n S := by
  intro v b ws cv stk loc g H hw hn hr
  obtain ⟨vc, nd, lt, cn, cls, len, free, hi, room, small⟩ := H
  simp only [Rep] at hr
  have hls : ∃ l ls', ls = l :: ls' := by
    cases ls with
    | nil => rcases hr with ⟨us, _, rfl, _⟩ | ⟨x, us, _, rfl, _⟩ <;> simp at hw
    | cons l ls => exact ⟨l, ls, rfl⟩
  obtain ⟨l, ls, rfl⟩ := hls
  have hl : l < n := lt l (by simp)
  have cls' : c ≠ l ∧ c ∉ ls := by simpa using cls
  have nd' : l ∉ ls ∧ ls.Nodup := by simpa using nd
  apply csteps_of_wp
  unfold lget
  rw [show (l :: ls).getD 0 0 = l from rfl]
  rcases hr with ⟨us, rfl, rfl, hu⟩ | ⟨x, us, rfl, rfl, hx⟩
  · simp only [List.map_cons, List.cons.injEq] at hw
    have vl := (nth_some hw.1).2
    wpl [vl]
    refine ⟨.i32 0#32 :: us, loc, g.mem, cv, rfl, Keep.refl, ?_, vc, Nat.le_refl _, by omega, rfl, fun _ _ => rfl,
      rep_none hu⟩
    rw [List.map_cons, List.map_cons, hw.1, hw.2]
  · simp only [List.map_cons, List.cons.injEq] at hw
    have vl := (nth_some hw.1).2
    wpl [vl]
    obtain ⟨ws', loc', m', cv', st, f⟩ := hg x b us cv [] loc g
      ⟨vc, nd'.2, fun i hi => lt i (by simp; exact .inr hi), cn, cls'.2, len, free, hi, room, small⟩ hw.2 hn hx
    rw [st.wp, blockK_norm, wp_nil]
    refine ⟨.i32 1#32 :: ws', loc', m', cv', rfl, f.keep.mono (Nat.le_refl _) (fun i _ h => ?_), ?_, f.vc, f.lo, f.hi,
      f.size, f.mem, rep_some f.rep⟩
    · simp only [List.mem_cons] at h ⊢
      rcases h with h | h
      · exact .inl h
      · exact .inr (.inr h)
    · rw [List.map_cons, List.map_cons, show ls.map _ = _ from f.vals, f.keep.2 l hl (by simp; exact ⟨cls'.1.symm, nd'.1⟩), hw.1]

theorem map_split {α β : Type} {f : α → Option β} {A B : List α} {us vs : List β} (h : (A ++ B).map f = (us ++ vs).map some)
    (hl : A.length = us.length) : A.map f = us.map some ∧ B.map f = vs.map some := by
  rw [List.map_append, List.map_append] at h
  exact List.append_inj h (by simp [hl])

theorem copy_resp {t u : Ty} {a b : Emit} {l : Nat} {A B : List Nat} {c n S S' : Nat}
    (hA : A.length = (wty t).length) (hg : CGood M t a A c n S) (hg' : CGood M u b B c (n + a.ls.length) S') :
    CGood M (.resp t u) ⟨[lget l, .ite 0 0 a.is b.is], a.ls ++ b.ls⟩ (l :: (A ++ B)) c n (S + S') := by
  intro v b ws cv stk loc g H hw hn hr
  obtain ⟨vc, nd, lt, cn, cls, len, free, hi, room, small⟩ := H
  simp only [Rep] at hr
  simp only [List.length_append] at hn
  have hl : l < n := lt l (by simp)
  have cls' : c ≠ l ∧ c ∉ A ∧ c ∉ B := by simpa using cls
  have nd' : (l ∉ A ∧ l ∉ B) ∧ A.Nodup ∧ B.Nodup ∧ ∀ x ∈ A, ∀ y ∈ B, x ≠ y := by
    simpa [List.nodup_append] using nd
  obtain ⟨⟨n1, n2⟩, n3, n4, n5⟩ := nd'
  have ltA : ∀ i ∈ A, i < n := fun i hi => lt i (by simp; exact .inr (.inl hi))
  have ltB : ∀ i ∈ B, i < n := fun i hi => lt i (by simp; exact .inr (.inr hi))
  apply csteps_of_wp
  unfold lget
  rcases hr with ⟨x, us, js, rfl, rfl, hx, hj⟩ | ⟨x, us, js, rfl, rfl, hx, hj⟩
  · simp only [List.map_cons, List.cons.injEq] at hw
    have vl := (nth_some hw.1).2
    have hw2 := map_split hw.2 (by rw [hA, hx.len])
    wpl [vl]
    obtain ⟨ws', loc', m', cv', st, f⟩ := hg x b us cv [] loc g
      ⟨vc, n3, ltA, cn, cls'.2.1, len, fun i h1 h2 => free i h1 (by omega), hi, by omega, small⟩ hw2.1 (by omega) hx
    rw [st.wp, blockK_norm, wp_nil]
    refine ⟨.i32 1#32 :: (ws' ++ js), loc', m', cv', rfl, f.keep.mono (Nat.le_refl _) (fun i _ h => ?_), ?_, f.vc, f.lo,
      by have := f.hi; omega, f.size, fun i hi => f.mem i (by omega), rep_ok f.rep hj⟩
    · simp only [List.mem_cons, List.mem_append] at h ⊢
      rcases h with h | h
      · exact .inl h
      · exact .inr (.inr (.inl h))
    · rw [List.map_cons, List.map_cons, List.map_append, List.map_append, f.vals,
        f.keep.2 l hl (by simp; exact ⟨cls'.1.symm, n1⟩), hw.1,
        f.keep.held ltB (fun y hy => by simp; exact ⟨fun e => cls'.2.2 (e ▸ hy), fun h => n5 y h y hy rfl⟩) hw2.2]
  · simp only [List.map_cons, List.cons.injEq] at hw
    have vl := (nth_some hw.1).2
    have hw2 := map_split hw.2 (by rw [hA, ← hj, List.length_map])
    wpl [vl]
    obtain ⟨ws', loc', m', cv', st, f⟩ := hg' x b us cv [] loc g
      ⟨vc, n4, fun i hi => by have := ltB i hi; omega, by omega, cls'.2.2, by omega, fun i h1 h2 => free i h1 (by omega),
        hi, by omega, small⟩ hw2.2 (by omega) hx
    rw [st.wp, blockK_norm, wp_nil]
    refine ⟨.i32 0#32 :: (js ++ ws'), loc', m', cv', rfl, f.keep.mono (by omega) (fun i _ h => ?_), ?_, f.vc, f.lo,
      by have := f.hi; omega, f.size, fun i hi => f.mem i (by omega), rep_err f.rep hj⟩
    · simp only [List.mem_cons, List.mem_append] at h ⊢
      rcases h with h | h
      · exact .inl h
      · exact .inr (.inr (.inr h))
    · rw [List.map_cons, List.map_cons, List.map_append, List.map_append, f.vals,
        f.keep.2 l (by omega) (by simp; exact ⟨cls'.1.symm, n2⟩), hw.1,
        f.keep.held (fun i hi => by have := ltA i hi; omega)
          (fun y hy => by simp; exact ⟨fun e => cls'.2.1 (e ▸ hy), fun h => n5 y hy y h rfl⟩) hw2.1]

theorem copy_cons {t : Ty} {fs : Fields} {k : Name} {kvs : List (Name × Value)} {a b : Emit} {A B : List Nat}
    {c n S S' : Nat} (hA : A.length = (wty t).length) (hg : CGood M t a A c n S)
    (hg' : ∀ kvs, CG M (fun m b ws => RepF m b fs kvs ws) b B c (n + a.ls.length) S') :
    CG M (fun m b ws => RepF m b (.cons k t fs) kvs ws) ⟨a.is ++ b.is, a.ls ++ b.ls⟩ (A ++ B) c n (S + S') := by
  intro b ws cv stk loc g H hw hn hr
  obtain ⟨vc, nd, lt, cn, cls, len, free, hi, room, small⟩ := H
  simp only [RepF] at hr
  obtain ⟨x, r, us, vs, rfl, rfl, hx, hr⟩ := hr
  simp only [List.length_append] at hn
  have cls' : c ∉ A ∧ c ∉ B := by simpa using cls
  obtain ⟨n3, n4, n5⟩ := List.nodup_append.1 nd
  have ltA : ∀ i ∈ A, i < n := fun i hi => lt i (by simp; exact .inl hi)
  have ltB : ∀ i ∈ B, i < n := fun i hi => lt i (by simp; exact .inr hi)
  have hw2 := map_split hw (by rw [hA, hx.len])
  obtain ⟨ws1, loc1, m1, cv1, st1, f1⟩ := hg x b us cv stk loc g
    ⟨vc, n3, ltA, cn, cls'.1, len, fun i h1 h2 => free i h1 (by omega), hi, by omega, small⟩ hw2.1 (by omega) hx
  have hlen1 := f1.keep.1
  have lo1 := f1.lo
  have hi1 := f1.hi
  have hsz1 : (g.setMem m1).mem.size = g.mem.size := f1.size
  have same1 : Same b g.mem m1 := by
    intro i h1 h2
    refine f1.mem i ?_
    by_cases h : i < cv.toNat ∨ cv.toNat + S ≤ i
    · exact h
    · rcases free i (by omega) (by omega) with h | h
      · exact absurd h h2
      · omega
  obtain ⟨ws2, loc2, m2, cv2, st2, f2⟩ := hg' r b vs cv1 stk loc1 (g.setMem m1)
    ⟨f1.vc, n4, fun i hi => by have := ltB i hi; omega, by omega, cls'.2, by omega,
      fun i h1 h2 => free i (by omega) (by omega), by omega, by omega, by omega⟩
    (f1.keep.held ltB (fun y hy => by simp; exact ⟨fun e => cls'.2 (e ▸ hy), fun h => n5 y h y hy rfl⟩) hw2.2)
    (by omega) (RepF.mono same1 ⟨Nat.le_refl _, fun _ _ h => h⟩ hr)
  have lo2 := f2.lo
  have hi2 := f2.hi
  refine ⟨ws1 ++ ws2, loc2, m2, cv2, st1.append st2, ?_, ?_, f2.vc, by omega, by omega, ?_, ?_, ?_⟩
  · refine (f1.keep.mono (Nat.le_refl _) (bs' := c :: (A ++ B)) ?_).trans f2.keep (by omega) ?_
    · intro i _ h
      simp only [List.mem_cons, List.mem_append] at h ⊢
      rcases h with h | h
      · exact .inl h
      · exact .inr (.inl h)
    · intro i _ h
      simp only [List.mem_cons, List.mem_append] at h ⊢
      rcases h with h | h
      · exact .inl h
      · exact .inr (.inr h)
  · rw [List.map_append, List.map_append, f2.vals,
      f2.keep.held (fun i hi => by have := ltA i hi; omega)
          (fun y hy => by simp; exact ⟨fun e => cls'.1 (e ▸ hy), fun h => n5 y hy y h rfl⟩) f1.vals]
  · rw [f2.size, hsz1]
  · intro i hi
    rw [f2.mem i (by omega)]
    exact f1.mem i (by omega)
  · simp only [RepF]
    refine ⟨x, r, ws1, ws2, rfl, rfl, f1.rep.mono ?_ (seg_le (Nat.le_refl _) lo2),
      RepF.mono (fun _ _ _ => rfl) ?_ f2.rep⟩
    · intro i (h1 : i < cv1.toNat) _
      exact f2.mem i (.inl h1)
    · exact seg_le lo1 (Nat.le_refl _)

/-- The state of the loop over the elements of a list, before the element `i`. -/
structure LC (e : Ty) (vs : List Value) (b : Reg) (o l c n S : Nat) (cv : BitVec 32) (loc : List Val) (g : Store σ)
    (i : Nat) (loc' : List Val) (m' : Mem) (cv' : BitVec 32) : Prop where
  keep : Keep n [c, o, l] loc loc'
  vo : nth loc' o = .i32 (cv + BitVec.ofNat 32 (i * typeSize e))
  vl : nth loc' l = .i32 (BitVec.ofNat 32 ((vs.length - i) * typeSize e))
  vc : nth loc' c = .i32 cv'
  lo : cv.toNat + vs.length * typeSize e ≤ cv'.toNat
  hi : cv'.toNat ≤ cv.toNat + vs.length * typeSize e + i * countSpace e
  size : m'.size = g.mem.size
  mem : ∀ i, i < cv.toNat ∨ cv.toNat + S ≤ i → m'.byte i = g.mem.byte i
  done : ∀ (j : Nat) x, j < i → vs[j]? = some x →
    Rep m' (seg (cv.toNat + vs.length * typeSize e) cv'.toNat) e x (loadVals m' e (cv.toNat + j * typeSize e))
  todo : ∀ (j : Nat) x, i ≤ j → vs[j]? = some x → Rep m' b e x (loadVals m' e (cv.toNat + j * typeSize e))

/-- One round of the loop. -/
theorem wp_copy_elem {e : Ty} {vs : List Value} {b : Reg} {o l c n S i : Nat} {cv cv' : BitVec 32}
    {loc loc' : List Val} {g : Store σ} {m' : Mem} {a : Emit} {Q : Res σ → Prop} (hp : 0 < typeSize e)
    (hg : CGood M e a (saveLocals e n) c (n + (wty e).length) (countSpace e))
    (H : CIn b [o, l] c n S cv loc g) (I : LC e vs b o l c n S cv loc g i loc' m' cv') (hi : i < vs.length)
    (hS : vs.length * (typeSize e + countSpace e) ≤ S)
    (hn : n + (wty e).length + a.ls.length + (writeMem o e 0 (n + (wty e).length + a.ls.length)).ls.length ≤ loc.length)
    (h1 : ∀ loc2 m2 cv2, LC e vs b o l c n S cv loc g (i + 1) loc2 m2 cv2 → i + 1 < vs.length →
      Q (.br 0 [] loc2 (g.setMem m2)))
    (h2 : ∀ loc2 m2 cv2, LC e vs b o l c n S cv loc g (i + 1) loc2 m2 cv2 → i + 1 = vs.length →
      Q (.norm [] loc2 (g.setMem m2))) :
    WP M ((readMem o e 0).is ++ saveCode e n ++ a.is ++ getLocals (saveLocals e n) ++
      (writeMem o e 0 (n + (wty e).length + a.ls.length)).is ++
      [lget o, c32 (readMem o e 0).sz, .b (.i32bin .add), lset o,
       lget l, c32 (readMem o e 0).sz, .b (.i32bin .sub), .b (.localTee l), .brIf 0]) [] loc' (g.setMem m') Q := by
  obtain ⟨vc, nd, lt, cn, cls, len, free, bhi, room, small⟩ := H
  obtain ⟨keep, vo', vl', vc', clo, chi, size, mem, done, todo⟩ := I
  have ho : o < n := lt o (by simp)
  have hl : l < n := lt l (by simp)
  have hol : o ≠ l := by simpa using nd
  have hc : c ≠ o ∧ c ≠ l := by simpa using cls
  have hc1 := hc.1
  have hc2 := hc.2
  have hlen : loc'.length = loc.length := keep.1
  rw [readMem_sz]
  generalize hts : typeSize e = ts at *
  generalize hsp : countSpace e = sp at *
  have p1 : vs.length * (ts + sp) = vs.length * ts + vs.length * sp := Nat.mul_add _ _ _
  have p2 : (i + 1) * ts ≤ vs.length * ts := Nat.mul_le_mul_right _ hi
  have p3 : (i + 1) * sp ≤ vs.length * sp := Nat.mul_le_mul_right _ hi
  have p4 : (i + 1) * ts = i * ts + ts := by rw [Nat.add_mul, Nat.one_mul]
  have p5 : (i + 1) * sp = i * sp + sp := by rw [Nat.add_mul, Nat.one_mul]
  have p6 : (vs.length - i) * ts = (vs.length - (i + 1)) * ts + ts := by
    rw [show vs.length - i = vs.length - (i + 1) + 1 by omega, Nat.add_mul, Nat.one_mul]
  have p7 : (vs.length - (i + 1)) * ts ≤ vs.length * ts := Nat.mul_le_mul_right _ (by omega)
  have p8 : i + 1 < vs.length → 0 < (vs.length - (i + 1)) * ts := fun h => Nat.mul_pos (by omega) hp
  have eo : (cv + BitVec.ofNat 32 (i * ts)).toNat = cv.toNat + i * ts := add_toNat (by omega)
  simp only [List.append_assoc]
  -- read
  refine (steps_readMem (M := M) (a := cv + BitVec.ofNat 32 (i * ts)) (g := g.setMem m')
    (by rw [nth_of_lt (by omega), vo']) e 0 [] (by rw [hts, mem_setMem, size]; omega) _ _).2 ?_
  obtain ⟨x, hx⟩ : ∃ x, vs[i]? = some x := ⟨_, List.getElem?_eq_getElem hi⟩
  have hr := todo i x (Nat.le_refl _) hx
  rw [eo, Nat.add_zero, mem_setMem]
  generalize hU : loadVals m' e (cv.toNat + i * ts) = us at *
  -- save
  obtain ⟨loc1, st1, l1, k1, v1⟩ := steps_save (M := M) (s := []) (loc := loc') (g := g.setMem m') e n us hr.len (by omega)
  refine (st1 _ _).2 ?_
  have n1 : ∀ j, j < n → nth loc1 j = nth loc' j := by
    intro j hj
    have := k1 j (.inl hj)
    rw [nth_of_lt (by omega), nth_of_lt (by omega)] at this
    exact Option.some.inj this
  -- copy
  obtain ⟨ws2, loc2, m2, cv2, st2, f2⟩ := hg x b us cv' [] loc1 (g.setMem m')
    ⟨by rw [n1 c cn, vc'], nodup_rev List.nodup_range', fun j hj => by have := mem_saveLocals.1 hj; omega, by omega,
      fun hj => by have := mem_saveLocals.1 hj; omega, by omega,
      fun j hj hj' => free j (by omega) (by omega), by rw [mem_setMem, size]; exact bhi,
      by rw [mem_setMem, size]; omega, by rw [mem_setMem, size]; exact small⟩ v1 (by omega) hr
  refine (st2 _ _).2 ?_
  rw [setMem_setMem']
  obtain ⟨k2, v2, c2, lo2, hi2, s2, b2, r2⟩ := f2
  rw [mem_setMem] at s2 b2
  have l2 := k2.1
  have n2 : ∀ j, j < n → j ≠ c → nth loc2 j = nth loc' j := by
    intro j hj hjc
    rw [k2.nth (by omega) (by simp; exact ⟨hjc, fun h => by have := mem_saveLocals.1 h; omega⟩) (by omega), n1 j hj]
  -- get, write
  refine (steps_getLocals v2 _ _).2 ?_
  obtain ⟨loc3, m3, st3, l3, k3, s3, b3, r3⟩ := stored_rep (M := M) (T := e) (v := x) (ws := ws2) (stk := []) (ol := o)
    (a := cv + BitVec.ofNat 32 (i * ts)) (loc := loc2)
    (g := g.setMem m2) (b := seg cv'.toNat cv2.toNat) (m := n + (wty e).length + a.ls.length)
    (by rw [nth_of_lt (by omega), n2 o ho (Ne.symm hc.1), vo']) (by omega) (by omega)
    (by rw [eo, hts, mem_setMem, s2, size]; omega) r2
    (fun j _ hj => .inl (show j < cv'.toNat by rw [eo, hts] at hj; omega))
  refine (st3 _ _).2 ?_
  rw [setMem_setMem']
  rw [eo, hts, mem_setMem] at b3
  rw [eo] at r3
  rw [mem_setMem] at s3
  have n3 : ∀ j, j < n → nth loc3 j = nth loc2 j := by
    intro j hj
    have := k3 j (.inl (by omega))
    rw [nth_of_lt (by omega), nth_of_lt (by omega)] at this
    exact Option.some.inj this
  have o3 : nth loc3 o = .i32 (cv + BitVec.ofNat 32 (i * ts)) := by rw [n3 o ho, n2 o ho (Ne.symm hc.1), vo']
  have vl3 : nth loc3 l = .i32 (BitVec.ofNat 32 ((vs.length - i) * ts)) := by rw [n3 l hl, n2 l hl (Ne.symm hc.2), vl']
  have c3 : nth loc3 c = .i32 cv2 := by rw [n3 c cn, c2]
  have el : (BitVec.ofNat 32 ((vs.length - i) * ts) - BitVec.ofNat 32 ts : BitVec 32) =
      BitVec.ofNat 32 ((vs.length - (i + 1)) * ts) := by
    rw [p6, BitVec.ofNat_add, BitVec.add_sub_cancel]
  have eo2 : (cv + BitVec.ofNat 32 (i * ts) + BitVec.ofNat 32 ts : BitVec 32) = cv + BitVec.ofNat 32 ((i + 1) * ts) := by
    rw [p4, BitVec.ofNat_add, BitVec.add_assoc]
  unfold lget lset c32
  wpl [o3, vl3, el, eo2]
  obtain ⟨loc4, hl4⟩ : ∃ l4, l4 = (loc3.set o (.i32 (cv + BitVec.ofNat 32 ((i + 1) * ts)))).set l
    (.i32 (BitVec.ofNat 32 ((vs.length - (i + 1)) * ts))) := ⟨_, rfl⟩
  rw [← hl4]
  have J : LC e vs b o l c n S cv loc g (i + 1) loc4 m3 cv2 := by
    refine ⟨?_, ?_, ?_, ?_, by rw [hts]; omega, by rw [hts, hsp]; omega, by rw [s3, s2, size], ?_, ?_, ?_⟩
    · rw [hl4]
      refine Keep.set (Keep.set ?_ (.inr (by simp))) (.inr (by simp))
      refine keep.trans (l1 := loc') (n' := n) (bs' := [c]) ⟨by omega, fun j hj hjc => ?_⟩ (Nat.le_refl _)
        (fun _ _ h => by simp at h; simp [h])
      rw [nth_of_lt (by omega), nth_of_lt (by omega), n3 j hj, n2 j hj (by simpa using hjc)]
    · rw [hl4, hts]; wpl
    · rw [hl4, hts]; wpl
    · rw [hl4]; wpl [c3]
    · intro j hj
      rw [b3 j (by omega), b2 j (by omega), mem j hj]
    · rw [hts]
      intro j y hj hy
      by_cases hji : j = i
      · subst hji
        obtain rfl : x = y := Option.some.inj (hx.symm.trans hy)
        exact r3.mono (fun _ _ _ => rfl) (seg_le (by omega) (Nat.le_refl _))
      · have hj' : j < i := by omega
        have q1 : (j + 1) * ts ≤ i * ts := Nat.mul_le_mul_right _ hj'
        have q2 : (j + 1) * ts = j * ts + ts := by rw [Nat.add_mul, Nat.one_mul]
        have hold := done j y hj' hy
        rw [loadVals_congr (m := m') (m' := m3) e (cv.toNat + j * ts) (by
          intro q hq1 hq2
          rw [hts] at hq2
          rw [b3 q (by omega), b2 q (by omega)])]
        refine hold.mono ?_ (seg_le (Nat.le_refl _) lo2)
        intro q (hq1 : q < cv'.toNat) hq2
        have hq2 : ¬ q < cv.toNat + vs.length * ts := hq2
        rw [b3 q (by omega), b2 q (by omega)]
    · rw [hts]
      intro j y hj hy
      have hjl : j < vs.length := (List.getElem?_eq_some_iff.1 hy).1
      have q1 : (i + 1) * ts ≤ j * ts := Nat.mul_le_mul_right _ hj
      have q2 : (j + 1) * ts = j * ts + ts := by rw [Nat.add_mul, Nat.one_mul]
      have q3 : (j + 1) * ts ≤ vs.length * ts := Nat.mul_le_mul_right _ hjl
      have hold := todo j y (by omega) hy
      rw [loadVals_congr (m := m') (m' := m3) e (cv.toNat + j * ts) (by
        intro q hq1 hq2
        rw [hts] at hq2
        rw [b3 q (by omega), b2 q (by omega)])]
      refine hold.mono ?_ ⟨Nat.le_refl _, fun _ _ h => h⟩
      intro q hq1 hq2
      have key : ¬ (cv.toNat ≤ q ∧ q < cv.toNat + S) := by
        rintro ⟨w1, w2⟩
        rcases free q w1 w2 with h | h
        · exact hq2 h
        · omega
      rw [b3 q (by omega), b2 q (by omega)]
  have e3 : BitVec.ofNat 32 ((vs.length - (i + 1)) * ts) = 0#32 ↔ i + 1 = vs.length := by
    constructor
    · intro h
      have := congrArg BitVec.toNat h
      rw [BitVec.toNat_ofNat, Nat.mod_eq_of_lt (by omega)] at this
      have : (vs.length - (i + 1)) * ts = 0 := this
      by_cases h' : i + 1 < vs.length
      · have := p8 h'; omega
      · omega
    · intro h
      rw [h, Nat.sub_self, Nat.zero_mul]
  by_cases hlast : i + 1 = vs.length
  · rw [if_pos (e3.2 hlast)]
    exact h2 _ _ _ J hlast
  · rw [if_neg (mt e3.1 hlast)]
    exact h1 _ _ _ J (by omega)

theorem space_eq : ∀ T : Ty, countSpace T + typeSize T = typeInMemorySize true T
  | .noType | .int | .uint | .bool | .principal | .callable _ | .trait _ | .traitRef _ | .buff _ | .ascii _ => rfl
  | .utf8 n => by simp only [countSpace, typeSize, typeInMemorySize, if_true]; omega
  | .list n e => by simp only [countSpace, typeSize, typeInMemorySize, if_true]; omega
  | .opt t => by
    have := space_eq t
    simp only [countSpace, typeSize, typeInMemorySize]; omega
  | .resp o e => by
    have := space_eq o
    have := space_eq e
    simp only [countSpace, typeSize, typeInMemorySize]; omega
  | .tuple fs => by simp only [countSpace, typeSize, typeInMemorySize]; exact spaceF_eq fs
where
  spaceF_eq : ∀ fs : Fields, countSpaceF fs + fieldsSize fs = fieldsInMemorySize true fs
  | .nil => rfl
  | .cons _ t fs => by
    have := space_eq t
    have := spaceF_eq fs
    simp only [countSpaceF, fieldsSize, fieldsInMemorySize]; omega

theorem copy_list {e : Ty} {a : Emit} {o l c n max : Nat} (hp : 0 < typeSize e)
    (hg : CGood M e a (saveLocals e n) c (n + (wty e).length) (countSpace e)) :
    CGood M (.list max e) ⟨copyBytes o l c ++
      [lget l, .ite 0 0
        [lget o, lget l,
         .loop 0 0 ((readMem o e 0).is ++ saveCode e n ++ a.is ++ getLocals (saveLocals e n) ++
          (writeMem o e 0 (n + (wty e).length + a.ls.length)).is ++
          [lget o, c32 (readMem o e 0).sz, .b (.i32bin .add), lset o,
           lget l, c32 (readMem o e 0).sz, .b (.i32bin .sub), .b (.localTee l), .brIf 0]),
         lset l, lset o] []],
      wty e ++ a.ls ++ (writeMem o e 0 (n + (wty e).length + a.ls.length)).ls⟩ [o, l] c n
      (max * typeInMemorySize true e) := by
  intro v b ws cv stk loc g H hw hn hr
  have H0 := H
  obtain ⟨vc, nd, lt, cn, cls, len, free, bhi, room, small⟩ := H
  simp only [List.length_append] at hn
  simp only [Rep] at hr
  obtain ⟨vs, x, y, rfl, hm, rfl, hy, has, hr⟩ := hr
  obtain ⟨_, _, e1, ho, hl, vo, vl⟩ := two_locals hw
  obtain ⟨rfl, rfl⟩ : o = _ ∧ l = _ := by simpa using e1
  have h1 : o ≠ l := by simpa using nd
  have h2 : c ≠ o ∧ c ≠ l := by simpa using cls
  have h21 := h2.1
  have h22 := h2.2
  have h3 := has.1
  rw [← space_eq] at room free H0 ⊢
  have q1 : max * (countSpace e + typeSize e) = max * countSpace e + max * typeSize e := Nat.mul_add _ _ _
  have q2 : vs.length * typeSize e ≤ max * typeSize e := Nat.mul_le_mul_right _ hm
  have q3 : vs.length * countSpace e ≤ max * countSpace e := Nat.mul_le_mul_right _ hm
  have q4 : vs.length * (typeSize e + countSpace e) = vs.length * typeSize e + vs.length * countSpace e :=
    Nat.mul_add _ _ _
  have e1 : (cv + y).toNat = cv.toNat + y.toNat := by rw [BitVec.toNat_add]; omega
  apply csteps_of_wp
  simp only
  rw [wp_copyBytes vo vl vc ho hl (by omega) h1 h2.1 h2.2 (by omega) (by omega)]
  obtain ⟨loc1, hl1⟩ : ∃ l1, l1 = (loc.set o (.i32 cv)).set c (.i32 (cv + y)) := ⟨_, rfl⟩
  rw [← hl1]
  obtain ⟨m1, hm1⟩ : ∃ m1, m1 = g.mem.copy cv.toNat x.toNat y.toNat := ⟨_, rfl⟩
  rw [← hm1]
  have len1 : loc1.length = loc.length := by rw [hl1]; simp
  have o1 : nth loc1 o = .i32 cv := by rw [hl1]; wpl
  have vl1 : nth loc1 l = .i32 y := by rw [hl1]; wpl [vl]
  have c1 : nth loc1 c = .i32 (cv + y) := by rw [hl1]; wpl
  have mem1 : ∀ i, i < cv.toNat ∨ cv.toNat + y.toNat ≤ i → m1.byte i = g.mem.byte i := by
    intro i hi
    rw [hm1, copy_byte, if_neg (by omega)]
  have copied : ∀ i, i < y.toNat → m1.byte (cv.toNat + i) = g.mem.byte (x.toNat + i) := by
    intro i hi
    rw [hm1, copy_byte, if_pos (by omega), show x.toNat + (cv.toNat + i - cv.toNat) = x.toNat + i by omega]
  have keep1 : Keep n [c, o, l] loc loc1 := by
    rw [hl1]; exact (Keep.refl.set (.inr (by simp))).set (.inr (by simp))
  have same1 : Same b g.mem m1 := by
    intro i w1 w2
    refine mem1 i ?_
    by_cases h : i < cv.toNat ∨ cv.toNat + y.toNat ≤ i
    · exact h
    · rcases free i (by omega) (by omega) with h | h
      · exact absurd h w2
      · omega
  have I : LC e vs b o l c n (max * (countSpace e + typeSize e)) cv loc g 0 loc1 m1 (cv + y) := by
    refine ⟨keep1, ?_, ?_, c1, by omega, by omega, by rw [hm1]; rfl, ?_, ?_, ?_⟩
    · rw [o1, Nat.zero_mul]; simp
    · rw [vl1, Nat.sub_zero, ← hy]; simp
    · intro i hi
      exact mem1 i (by omega)
    · intro j _ hj
      omega
    · intro j z _ hz
      have hjl : j < vs.length := (List.getElem?_eq_some_iff.1 hz).1
      have w2 : (j + 1) * typeSize e = j * typeSize e + typeSize e := by rw [Nat.add_mul, Nat.one_mul]
      have w3 : (j + 1) * typeSize e ≤ vs.length * typeSize e := Nat.mul_le_mul_right _ hjl
      rw [loadVals_move (m := g.mem) (m' := m1) e (x.toNat + j * typeSize e) (cv.toNat + j * typeSize e) (by
        intro i hi
        rw [Nat.add_assoc, Nat.add_assoc, copied _ (by omega)])]
      exact (hr j z hz).mono same1 ⟨Nat.le_refl _, fun _ _ h => h⟩
  -- the result
  have fin : ∀ loc2 m2 cv2, LC e vs b o l c n (max * (countSpace e + typeSize e)) cv loc g vs.length loc2 m2 cv2 →
      CFin (fun m b ws => Rep m b (.list max e) (.list vs) ws) [o, l] c n (max * (countSpace e + typeSize e)) cv loc g
        [.i32 cv, .i32 y] ((loc2.set l (.i32 y)).set o (.i32 cv)) m2 cv2 := by
    intro loc2 m2 cv2 J
    have len2 : loc2.length = loc.length := J.keep.1
    have w1 := J.lo
    have w2 := J.hi
    refine ⟨?_, ?_, ?_, by omega, by omega, J.size, J.mem, ?_⟩
    · exact (J.keep.set (.inr (by simp))).set (.inr (by simp))
    · rw [List.map_cons, List.map_cons, List.map_nil, nth_of_lt (by simp; omega), nth_of_lt (by simp; omega)]
      wpl
      rfl
    · wpl [J.vc]
    · simp only [Rep]
      refine ⟨vs, cv, y, rfl, hm, rfl, hy, ⟨?_, ?_⟩, ?_⟩
      · show _ ≤ cv2.toNat
        omega
      · intro i hi _ (hh : i < cv.toNat)
        omega
      · intro j z hz
        have hjl : j < vs.length := (List.getElem?_eq_some_iff.1 hz).1
        exact (J.done j z hjl hz).mono (fun _ _ _ => rfl) (seg_le (by omega) (Nat.le_refl _))
  generalize hB : (readMem o e 0).is ++ _ ++ _ ++ _ ++ _ ++ _ = body
  unfold lget lset
  wpl [vl1, o1]
  by_cases h0 : y = 0#32
  · wif h0
    have hy0 : y.toNat = 0 := by rw [h0]; rfl
    have hv0 : vs.length = 0 := by
      rcases Nat.eq_zero_or_pos vs.length with h | h
      · exact h
      · have := Nat.mul_pos h hp
        omega
    have := fin loc1 m1 (cv + y) (by rw [hv0]; exact I)
    refine ⟨[.i32 cv, .i32 y], loc1, m1, cv + y, rfl, keep1, ?_, c1, by omega, by omega, I.size, I.mem, this.rep⟩
    rw [List.map_cons, List.map_cons, List.map_nil, nth_of_lt (by omega), nth_of_lt (by omega), o1, vl1]
    rfl
  · wif h0
    have hv0 : 0 < vs.length := by
      rcases Nat.eq_zero_or_pos vs.length with h | h
      · rw [h, Nat.zero_mul] at hy
        exact absurd (BitVec.eq_of_toNat_eq hy) h0
      · exact h
    subst hB
    refine wp_loop_inv (fun k loc' g' => ∃ i m' cv', g' = g.setMem m' ∧ i + k = vs.length ∧ i < vs.length ∧
      LC e vs b o l c n (max * (countSpace e + typeSize e)) cv loc g i loc' m' cv') id vs.length
      ⟨0, m1, cv + y, rfl, by omega, hv0, I⟩ ?_
    rintro k loc' g' ⟨i, m', cv', rfl, hk, hi, J⟩
    refine wp_copy_elem hp hg H0 J hi (by omega) (by omega) ?_ ?_
    · intro loc2 m2 cv2 J2 h
      exact ⟨k - 1, by show k - 1 < k; omega, i + 1, m2, cv2, rfl, by omega, h, J2⟩
    · intro loc2 m2 cv2 J2 h
      rw [h] at J2
      have len2 : loc2.length = loc.length := J2.keep.1
      show loopK M 0 0 _ _ _ _ (.norm [] loc2 (g.setMem m2))
      wpl
      exact ⟨_, _, m2, cv2, rfl, fin loc2 m2 cv2 J2⟩

theorem hasInMem_flat : ∀ {T : Ty}, hasInMem T = false → Flat T
  | .noType, _ | .int, _ | .uint, _ | .bool, _ => trivial
  | .opt t, h => hasInMem_flat (T := t) h
  | .resp o e, h => by
    simp only [hasInMem, Bool.or_eq_false_iff] at h
    exact ⟨hasInMem_flat h.1, hasInMem_flat h.2⟩
  | .tuple fs, h => hasInMemF_flat h
where
  hasInMemF_flat : ∀ {fs : Fields}, hasInMemF fs = false → Flat.FlatF fs
  | .nil, _ => trivial
  | .cons _ t fs, h => by
    simp only [hasInMemF, Bool.or_eq_false_iff] at h
    exact ⟨hasInMem_flat h.1, hasInMemF_flat h.2⟩

/-- The copy of a part that may have nothing to copy. -/
theorem copy_if {T : Ty} {a : Emit} {ls : List Nat} {c n S : Nat} (h : CGood M T a ls c n S) :
    CGood M T (if hasInMem T then a else ⟨[], []⟩) ls c n S := by
  split
  · exact h
  · next hf => exact copy_flat (hasInMem_flat (by simpa using hf))

theorem length_principal {T : Ty} (hT : (∃ c, T = .callable c) ∨ (∃ t, T = .trait t) ∨ (∃ t, T = .traitRef t)) {v : Value}
    (h : HasType T v) : (memBytes v).length ≤ PRINCIPAL_BYTES_MAX := by
  rcases hT with ⟨c, rfl⟩ | ⟨c, rfl⟩ | ⟨c, rfl⟩
  · match v, h with
    | .principal (.contract c'), h =>
      obtain ⟨rfl, h⟩ := h
      exact length_principalBytes (p := .contract c') h
  · match v, h with
    | .callable c' (some _), h => exact length_principalBytes (p := .contract c') h.1
  · match v, h with
    | .principal (.contract c'), h => exact length_principalBytes (p := .contract c') h

theorem list2 {ls : List Nat} (h : ls.length = 2) : ∃ o l, ls = [o, l] := by
  match ls, h with
  | [o, l], _ => exact ⟨o, l, rfl⟩

mutual
/-- The code of `copy_value` for any type. -/
theorem copy_good : ∀ (T : Ty) (ls : List Nat) (c n : Nat), T.WF → ls.length = (wty T).length →
    CGood M T (copyVal T ls c n) ls c n (countSpace T)
  | .noType, _, _, _, _, _ => copy_flat (T := .noType) trivial
  | .int, _, _, _, _, _ => copy_flat (T := .int) trivial
  | .uint, _, _, _, _, _ => copy_flat (T := .uint) trivial
  | .bool, _, _, _, _, _ => copy_flat (T := .bool) trivial
  | .principal, _, _, _, _, _ => copy_bytes (fun _ _ _ _ => by simp only [Rep]) (fun v hv => by
      cases v <;> simp only [HasType] at hv
      exact length_principalBytes hv)
  | .list max e, ls, c, n, wf, hl => by
    obtain ⟨o, l, rfl⟩ := list2 hl
    simp only [copyVal]
    exact copy_list (typeSize_pos e wf) (copy_good e _ c _ wf (by simp [saveLocals]))
  | .opt t, ls, c, n, wf, hl => by
    simp only [copyVal]
    exact copy_opt (copy_good t _ c n wf (by simp [wty] at hl; simp [hl]))
  | .resp o e, ls, c, n, wf, hl => by
    cases ls with
    | nil => simp [wty] at hl
    | cons l ls =>
      simp only [wty, List.length_cons, List.length_append] at hl
      have hA : (ls.take (wty o).length).length = (wty o).length := by rw [List.length_take]; omega
      have := copy_resp (l := l) (B := ls.drop (wty o).length) hA
        (copy_if (copy_good o (ls.take (wty o).length) c n wf.1 hA))
        (copy_if (copy_good e (ls.drop (wty o).length) c _ wf.2 (by rw [List.length_drop]; omega)))
      rw [List.take_append_drop] at this
      exact this
  | .tuple fs, ls, c, n, wf, hl => by
    intro v b ws cv stk loc g H hw hn hr
    simp only [Rep] at hr
    obtain ⟨kvs, rfl, hr⟩ := hr
    obtain ⟨ws', loc', m', cv', st, f⟩ := copyF_good fs kvs ls c n wf.2.2 hl b ws cv stk loc g H hw hn hr
    exact ⟨ws', loc', m', cv', st, f.keep, f.vals, f.vc, f.lo, f.hi, f.size, f.mem, by
      simp only [Rep]; exact ⟨kvs, rfl, f.rep⟩⟩
  | .buff _, _, _, _, _, _ => copy_bytes (fun _ _ _ _ => by simp only [Rep]) (fun v hv => by
      cases v <;> simp only [HasType] at hv
      exact hv)
  | .ascii _, _, _, _, _, _ => copy_bytes (fun _ _ _ _ => by simp only [Rep]) (fun v hv => by
      cases v <;> simp only [HasType] at hv
      exact hv.1)
  | .utf8 _, _, _, _, _, _ => copy_bytes (fun _ _ _ _ => by simp only [Rep]) (fun v hv => by
      cases v <;> simp only [HasType] at hv
      simp only [memBytes, countSpace, flatMap4_length]; omega)
  | .callable _, _, _, _, _, _ => copy_bytes (fun _ _ _ _ => by simp only [Rep]) (fun v hv => by
      exact length_principal (T := .callable _) (by simp) hv)
  | .trait _, _, _, _, _, _ => copy_bytes (fun _ _ _ _ => by simp only [Rep]) (fun v hv => by
      exact length_principal (T := .trait _) (by simp) hv)
  | .traitRef _, _, _, _, _, _ => copy_bytes (fun _ _ _ _ => by simp only [Rep]) (fun v hv => by
      exact length_principal (T := .traitRef _) (by simp) hv)
theorem copyF_good : ∀ (fs : Fields) (kvs : List (Name × Value)) (ls : List Nat) (c n : Nat), fs.WF →
    ls.length = (wtyF fs).length →
    CG M (fun m b ws => RepF m b fs kvs ws) (copyFields fs ls c n) ls c n (countSpaceF fs)
  | .nil, kvs, ls, c, n, _, hl => by
    intro b ws cv stk loc g H hw _ hr
    simp only [RepF] at hr
    obtain ⟨rfl, rfl⟩ := hr
    exact ⟨[], loc, g.mem, cv, Steps.refl, Keep.refl, hw, H.vc, Nat.le_refl _, by omega, rfl, fun _ _ => rfl,
      by simp [RepF]⟩
  | .cons k t fs, kvs, ls, c, n, wf, hl => by
    simp only [wtyF, List.length_append] at hl
    have hA : (ls.take (wty t).length).length = (wty t).length := by rw [List.length_take]; omega
    have := copy_cons (k := k) (kvs := kvs) (B := ls.drop (wty t).length) hA
      (copy_if (copy_good t (ls.take (wty t).length) c n wf.1 hA))
      (fun kvs => copyF_good fs kvs (ls.drop (wty t).length) c _ wf.2 (by rw [List.length_drop]; omega))
    rw [List.take_append_drop] at this
    exact this
end

end Gen
