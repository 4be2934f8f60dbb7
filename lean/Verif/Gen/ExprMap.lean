import Verif.Gen.ExprFold

/-! Code of expressions: `map`. -/

namespace Gen
open Wasm Spec Host Core

/-- Number of elements of a value. -/
def count (v : Value) : Nat := ((seqElems v).getD []).length

theorem count_eq {v : Value} {xs : List Value} (h : seqElems v = some xs) : count v = xs.length := by simp [count, h]

/-- The least number of elements, at most `2 ^ 31 - 1`. -/
def least (vs : List Value) : Nat := vs.foldl (fun a v => min a (count v)) 2147483647

theorem least_snoc (vs : List Value) (v : Value) : least (vs ++ [v]) = min (least vs) (count v) := by simp [least]

theorem foldl_min : ∀ (vs : List Value) (a : Nat), vs.foldl (fun a v => min a (count v)) a ≤ a ∧
    (∀ v ∈ vs, vs.foldl (fun a v => min a (count v)) a ≤ count v) ∧
    (∀ b, b ≤ a → (∀ v ∈ vs, b ≤ count v) → b ≤ vs.foldl (fun a v => min a (count v)) a)
  | [], a => ⟨Nat.le_refl _, by simp, fun _ h _ => h⟩
  | v :: vs, a => by
    obtain ⟨h1, h2, h3⟩ := foldl_min vs (min a (count v))
    refine ⟨Nat.le_trans h1 (Nat.min_le_left ..), ?_, ?_⟩
    · intro u hu
      rcases List.mem_cons.1 hu with rfl | hu
      · exact Nat.le_trans h1 (Nat.min_le_right ..)
      · exact h2 u hu
    · intro b hb h
      exact h3 b (Nat.le_min.2 ⟨hb, h v (by simp)⟩) fun u hu => h u (by simp [hu])

theorem least_le {vs : List Value} {v : Value} (h : v ∈ vs) : least vs ≤ count v := (foldl_min vs _).2.1 v h
theorem least_max (vs : List Value) : least vs ≤ 2147483647 := (foldl_min vs _).1
theorem le_least {vs : List Value} {b : Nat} (h0 : b ≤ 2147483647) (h : ∀ v ∈ vs, b ≤ count v) : b ≤ least vs := (foldl_min vs _).2.2 b h0 h

/-- Element `i` of each of the sequences. -/
def Row (i : Nat) : List Value → List Value → Prop
  | [], [] => True
  | v :: vs, x :: r => (∃ xs, seqElems v = some xs ∧ xs[i]? = some x) ∧ Row i vs r
  | _, _ => False

theorem mapM_cons {f : Value → Option (List Value)} {v : Value} {vs : List Value} {vss : List (List Value)}
    (h : (v :: vs).mapM f = some vss) : ∃ xs xss, f v = some xs ∧ vs.mapM f = some xss ∧ vss = xs :: xss := by
  rw [List.mapM_cons] at h
  cases hf : f v with
  | none => simp [hf] at h
  | some xs =>
    cases hm : vs.mapM f with
    | none => simp [hf, hm] at h
    | some xss => exact ⟨xs, xss, rfl, rfl, by simpa [hf, hm] using h.symm⟩

theorem rows_at : ∀ {vs : List Value} {vss : List (List Value)} {i : Nat} {r : List Value}, vs.mapM seqElems = some vss →
    (rows vss)[i]? = some r → Row i vs r
  | [], vss, i, r, h, hr => by
    simp at h; subst h
    simp [rows] at hr
  | [v], vss, i, r, h, hr => by
    obtain ⟨xs, xss, h1, h2, rfl⟩ := mapM_cons h
    simp at h2; subst h2
    simp only [rows, List.getElem?_map, Option.map_eq_some_iff] at hr
    obtain ⟨x, hx, rfl⟩ := hr
    exact ⟨⟨xs, h1, hx⟩, trivial⟩
  | v :: u :: vs, vss, i, r, h, hr => by
    obtain ⟨xs, xss, h1, h2, rfl⟩ := mapM_cons h
    obtain ⟨ys, yss, h3, h4, rfl⟩ := mapM_cons h2
    simp only [rows, List.getElem?_zipWith] at hr
    split at hr
    · rename_i x r' hx hr'
      cases hr
      exact ⟨⟨xs, h1, hx⟩, rows_at h2 hr'⟩
    · cases hr

theorem rows_length : ∀ {vs : List Value} {vss : List (List Value)}, vs.mapM seqElems = some vss → vs ≠ [] →
    (∀ v ∈ vs, (rows vss).length ≤ count v) ∧ ∀ b, (∀ v ∈ vs, b ≤ count v) → b ≤ (rows vss).length
  | [], _, _, h => absurd rfl h
  | [v], vss, h, _ => by
    obtain ⟨xs, xss, h1, h2, rfl⟩ := mapM_cons h
    simp at h2; subst h2
    simp [rows, count_eq h1]
  | v :: u :: vs, vss, h, _ => by
    obtain ⟨xs, xss, h1, h2, rfl⟩ := mapM_cons h
    obtain ⟨ys, yss, h3, h4, rfl⟩ := mapM_cons h2
    obtain ⟨k1, k2⟩ := rows_length h2 (by simp)
    simp only [rows, List.length_zipWith]
    refine ⟨?_, ?_⟩
    · intro x hx
      rcases List.mem_cons.1 hx with rfl | hx
      · rw [count_eq h1]; exact Nat.min_le_left ..
      · exact Nat.le_trans (Nat.min_le_right ..) (k1 x hx)
    · intro b hb
      exact Nat.le_min.2 ⟨count_eq h1 ▸ hb v (by simp), k2 b fun x hx => hb x (by simp [hx])⟩

theorem rows_least {vs : List Value} {vss : List (List Value)} (h : vs.mapM seqElems = some vss) (hn : vs ≠ [])
    (hs : ∃ v ∈ vs, count v ≤ 2147483647) : (rows vss).length = least vs := by
  obtain ⟨h1, h2⟩ := rows_length h hn
  obtain ⟨v, hv, hc⟩ := hs
  exact Nat.le_antisymm (le_least (Nat.le_trans (h1 v hv) hc) h1) (h2 _ fun u hu => least_le hu)

/-- The sequences `vs` of the types in `ss` are in memory; the locals in `ss` hold the address of their elements
number `i`. -/
def SeqsAt (m : Mem) (b : Reg) (loc : List Val) (i : Nat) : List (Ty × Nat) → List Value → Prop
  | [], [] => True
  | (S, o) :: r, v :: vs => (SeqOk S ∧ ∃ a l : BitVec 32, Rep m b S v [.i32 a, .i32 l] ∧ loc[o]? = some (.i32 (a + BitVec.ofNat 32 (i * unit S)))) ∧
      SeqsAt m b loc i r vs
  | _, _ => False

theorem SeqsAt.mono {m m' : Mem} {b b' : Reg} {loc loc' : List Val} {i : Nat} (hm : Same b m m') (hb : b.Le b') :
    ∀ {ss : List (Ty × Nat)} {vs : List Value}, (∀ x ∈ ss, loc'[x.2]? = loc[x.2]?) → SeqsAt m b loc i ss vs → SeqsAt m' b' loc' i ss vs
  | [], [], _, _ => trivial
  | (S, o) :: r, v :: vs, hl, ⟨⟨h1, a, l, h2, h3⟩, h4⟩ =>
    ⟨⟨h1, a, l, h2.mono hm hb, (hl (S, o) (by simp)).trans h3⟩, SeqsAt.mono hm hb (fun x hx => hl x (by simp [hx])) h4⟩
  | [], _ :: _, _, h => h.elim
  | _ :: _, [], _, h => h.elim

theorem SeqsAt.snoc {m : Mem} {b : Reg} {loc : List Val} {i : Nat} {x : Ty × Nat} {v : Value} :
    ∀ {ss : List (Ty × Nat)} {vs : List Value}, SeqsAt m b loc i ss vs → SeqsAt m b loc i [x] [v] → SeqsAt m b loc i (ss ++ [x]) (vs ++ [v])
  | [], [], _, h => h
  | _ :: _, _ :: _, ⟨h1, h4⟩, h => ⟨h1, SeqsAt.snoc h4 h⟩
  | [], _ :: _, h, _ => h.elim
  | _ :: _, [], h, _ => h.elim

theorem SeqsAt.elems {m : Mem} {b : Reg} {loc : List Val} {i : Nat} : ∀ {ss : List (Ty × Nat)} {vs : List Value}, SeqsAt m b loc i ss vs →
    (∃ vss, vs.mapM seqElems = some vss) ∧ (∀ v ∈ vs, count v ≤ 2147483647) ∧ (∀ S ∈ ss.map Prod.fst, ∃ v ∈ vs, count v ≤ maxLen S) ∧
      vs.length = ss.length
  | [], [], _ => ⟨⟨[], rfl⟩, by simp, by simp, rfl⟩
  | (S, o) :: r, v :: vs, ⟨⟨h1, a, l, h2, h3⟩, h4⟩ => by
    obtain ⟨⟨vss, k1⟩, k2, k3, k4⟩ := SeqsAt.elems h4
    obtain ⟨xs, _, _, e1, e2, _⟩ := rep_seq h1.1 h2
    have := h1.2.2.1
    refine ⟨⟨xs :: vss, by simp [List.mapM_cons, e1, k1]⟩, ?_, ?_, by simp [k4]⟩
    · intro u hu
      rcases List.mem_cons.1 hu with rfl | hu
      · rw [count_eq e1]; omega
      · exact k2 u hu
    · intro U hU
      rcases List.mem_cons.1 hU with rfl | hU
      · exact ⟨v, by simp, by rw [count_eq e1]; exact e2⟩
      · obtain ⟨u, hu, h⟩ := k3 U hU
        exact ⟨u, by simp [hu], h⟩
  | [], _ :: _, h => h.elim
  | _ :: _, [], h => h.elim

section
variable {p : P} {k : Nat} {call : FSem} {wr : Bool} {w : World} {d n al : Nat} {er : Bool}
  {stk bs loc0 loc loc' : List Val} {g0 g : Store World}

/-- Reading an element of each sequence. -/
theorem steps_mapReads {b : Reg} (hb : b.hi < 2 ^ 32) (hsz : b.hi ≤ g.mem.size) {i : Nat} : ∀ {ss : List (Ty × Nat)} {vs r : List Value}
    {stk loc : List Val}, (ss.map Prod.snd).Nodup → SeqsAt g.mem b loc i ss vs → Row i vs r →
    ∃ ws loc', Steps p.M (mapReads ss) stk loc g (ws.reverse ++ stk) loc' g ∧ loc'.length = loc.length ∧
      (∀ q, (∀ x ∈ ss, q ≠ x.2) → loc'[q]? = loc[q]?) ∧ RepAll g.mem b (ss.map fun x => elemTy x.1) r ws ∧
      SeqsAt g.mem b loc' (i + 1) ss vs
  | [], [], [], stk, loc, _, _, _ => ⟨[], loc, Steps.refl, rfl, fun _ _ => rfl, ⟨rfl, rfl⟩, trivial⟩
  | (S, o) :: ss, v :: vs, x :: r, stk, loc, hnd, ⟨⟨h1, a, l, h2, h3⟩, h4⟩, ⟨⟨xs, e1, e2⟩, h5⟩ => by
    obtain ⟨xs', a', l', e3, e4, e5, hl, hhas⟩ := rep_seq h1.1 h2
    cases e1.symm.trans e3
    cases e5
    have hilt := (List.getElem?_eq_some_iff.1 e2).1
    have hhi : a.toNat + l.toNat ≤ b.hi := hhas.1
    have hmul : (i + 1) * unit S = i * unit S + unit S := Nat.succ_mul _ _
    have hle : (i + 1) * unit S ≤ xs.length * unit S := Nat.mul_le_mul_right _ (by omega)
    have ea : (a + BitVec.ofNat 32 (i * unit S)).toNat = a.toNat + i * unit S := add_toNat (by omega)
    have s1 := steps_readElem (M := p.M) (S := S) (o := o) (a := a + BitVec.ofNat 32 (i * unit S)) (stk := stk) (loc := loc) (g := g)
      h1.1 h3 (by rw [ea]; omega)
    have hlt : o < loc.length := (List.getElem?_eq_some_iff.1 h3).1
    obtain ⟨loc1, el⟩ : ∃ x, x = loc.set o (.i32 (a + BitVec.ofNat 32 ((i + 1) * unit S))) := ⟨_, rfl⟩
    have ea' : a + BitVec.ofNat 32 (i * unit S) + BitVec.ofNat 32 (unit S) = a + BitVec.ofNat 32 ((i + 1) * unit S) := by
      rw [hmul, BitVec.ofNat_add, BitVec.add_assoc]
    have s2 : Steps p.M [lget o, c32 (unit S), .b (.i32bin .add), lset o] ((elemVals g.mem S (a + BitVec.ofNat 32 (i * unit S))).reverse ++ stk) loc g
        ((elemVals g.mem S (a + BitVec.ofNat 32 (i * unit S))).reverse ++ stk) loc1 g := by
      refine Steps.of_wp fun Q => ?_
      obtain ⟨b1, e1⟩ := nth_some h3
      simp only [lget, lset, c32]
      wpl [e1, ea']
      rw [← el]
    simp only [List.map_cons, List.nodup_cons] at hnd
    have hne : ∀ y ∈ ss, y.2 ≠ o := fun y hy h => hnd.1 (List.mem_map.2 ⟨y, hy, h⟩)
    have h4' : SeqsAt g.mem b loc1 i ss vs := h4.mono (fun _ _ _ => rfl) ⟨Nat.le_refl _, fun _ _ h => h⟩ fun y hy => by
      rw [el, List.getElem?_set_ne (hne y hy).symm]
    obtain ⟨ws, loc', k1, k2, k3, k4, k5⟩ := steps_mapReads hb hsz (stk := (elemVals g.mem S (a + BitVec.ofNat 32 (i * unit S))).reverse ++ stk) hnd.2 h4' h5
    refine ⟨elemVals g.mem S (a + BitVec.ofNat 32 (i * unit S)) ++ ws, loc', ?_, by rw [k2, el]; simp, ?_, ?_, ⟨h1, a, l, h2, ?_⟩, k5⟩
    · simp only [mapReads]
      have := (s1.append s2).append k1
      simpa using this
    · intro q hq
      have := hq (S, o) (by simp)
      rw [k3 q fun y hy => hq y (by simp [hy]), el, List.getElem?_set_ne (by simpa using this.symm)]
    · exact ⟨x, r, _, ws, rfl, rfl, rep_elem h1.1 h2 hb e1 e2, k4⟩
    · rw [k3 o fun y hy => (hne y hy).symm, el, List.getElem?_set_self hlt]
  | [], _ :: _, _, _, _, _, h, _ => h.elim
  | _ :: _, [], _, _, _, _, h, _ => h.elim
  | [], [], _ :: _, _, _, _, _, h => h.elim
  | _ :: _, _ :: _, [], _, _, _, _, h => h.elim

/-- What holds at the start of a round of the loop of `map`, with the results `us` so far. -/
structure MapAt (p : P) (w : World) (E : Ty) (ss : List (Ty × Nat)) (vs : List Value) (mn q z : Nat) (loc0 : List Val)
    (g0 : Store World) (us : List Value) (s : St) (loc : List Val) (g : Store World) : Prop where
  fr : Fr (mn + 1) z loc0 loc g0 g
  hold : sp g0 + z ≤ sp g
  inv : Inv (p.res (sp g0) z) w s 0 g
  seqs : SeqsAt g.mem ((p.res (sp g0) z).reg g) loc us.length ss vs
  out : ElemsAt g.mem ((p.res (sp g0) z).reg g) E (sp g0) us
  l0 : loc[q]? = some (.i32 (g0.g32 .stackPointer + BitVec.ofNat 32 (us.length * typeSize E)))
  l1 : loc[q + 1]? = some (.i32 (BitVec.ofNat 32 us.length))
  lb : loc[q - 1]? = some (.i32 (g0.g32 .stackPointer))
  lm : loc[mn]? = some (.i32 (BitVec.ofNat 32 (least vs)))

/-- The result of the loop of `map`. -/
def Mapped (p : P) (E : Ty) (N q : Nat) (g0 : Store World) (z : Nat) : Value → List Val → List Val → Store World → Prop :=
  fun v ws loc g => ws = [] ∧ loc[q - 1]? = some (.i32 (g0.g32 .stackPointer)) ∧ ∃ us, v = .list us ∧ us.length = N ∧
    sp g0 + z ≤ sp g ∧ ElemsAt g.mem ((p.res (sp g0) z).reg g) E (sp g0) us

/-- What holds after element `i` of each sequence has been read and the function applied. -/
def RowPost (p : P) (E : Ty) (ss : List (Ty × Nat)) (vs : List Value) (mn q i : Nat) (loc : List Val) :
    Value → List Val → List Val → Store World → Prop :=
  fun y ws loc' g' => Rep g'.mem (p.reg g') E y ws ∧ SeqsAt g'.mem (p.reg g') loc' (i + 1) ss vs ∧
    ∀ t, t ≤ mn ∨ (q - 1 ≤ t ∧ t < q + 2) → loc'[t]? = loc[t]?

/-- The code `rc` reads the next element of each sequence and applies the function. -/
def RowGood (p : P) (w : World) (d : Nat) (E : Ty) (ss : List (Ty × Nat)) (vs : List Value) (mn q len : Nat) (rc : List Instr)
    (ap : List Value → St → Out Value) : Prop :=
  ∀ i r s loc g, loc.length = len → SeqsAt g.mem (p.reg g) loc i ss vs → Row i vs r → Inv p w s 0 g →
    Does p w d false (mn + 1) 0 rc [] [] loc g (ap r s) (RowPost p E ss vs mn q i loc)

theorem Does.lower {α : Type} {o : Out α} {is : List Instr} {Q : α → List Val → List Val → Store World → Prop} {n' : Nat}
    (h : Does p w d er n' al is stk bs loc g o Q) (hn : n ≤ n') :
    Does p w d er n al is stk bs loc g o (fun a ws loc' g' => Q a ws loc' g' ∧ Fr n' al loc loc' g g') := by
  intro hd
  refine (h hd).mono ?_
  intro r hr
  cases o with
  | val a s' =>
    obtain ⟨ws, loc', g', rfl, hf, hh, hs, hq⟩ := hr
    exact ⟨ws, loc', g', rfl, hf.weaken hn (Nat.le_refl _), hh, hs, hq, hf⟩
  | ret v s' =>
    obtain ⟨he, ws, junk, loc', g', rfl, hf, hr⟩ := hr
    exact ⟨he, ws, junk, loc', g', rfl, hf.weaken hn (Nat.le_refl _), hr⟩
  | _ => exact hr

/-- All elements are read first. -/
theorem row_reads {E : Ty} {ss : List (Ty × Nat)} {vs : List Value} {mn q len : Nat} {ac : List Instr} {ap : List Value → St → Out Value}
    (hss : ∀ x ∈ ss, mn < x.2 ∧ x.2 + 1 < q) (hnd : (ss.map Prod.snd).Nodup) (hmq : mn + 1 < q)
    (hap : ∀ r ws s loc g, loc.length = len → Inv p w s 0 g → RepAll g.mem (p.reg g) (ss.map fun x => elemTy x.1) r ws →
      Does p w d false (q + 2) 0 ac (ws.reverse ++ []) [] loc g (ap r s) (IsRep p E)) :
    RowGood p w d E ss vs mn q len (mapReads ss ++ ac) ap := by
  intro i r s loc g hlen hsq hrow hi
  have hroom := hi.room
  obtain ⟨ws, loc1, s1, len1, keep1, hrep, seqs1⟩ := steps_mapReads (p := p) (g := g) (b := p.reg g) (stk := []) hi.sp_lt
      (show sp g ≤ _ by omega) hnd hsq hrow
  have kp : ∀ t, t ≤ mn ∨ q - 1 ≤ t → loc1[t]? = loc[t]? := fun t ht => keep1 t fun x hx => by
    have := hss x hx; omega
  have h2 := (hap r ws s loc1 g (by omega) hi hrep).lower (n := q) (by omega)
  refine Does.steps0 s1 (Fr.locals len1 fun t ht => kp t (by omega)) (n' := q) (by omega) (h2.mono (Nat.le_refl _) ?_)
  rintro y s' us loc' g' - - ⟨hy, hf⟩
  refine ⟨hy, seqs1.mono hf.same hf.le fun x hx => hf.keep _ (by have := hss x hx; omega), fun t ht => ?_⟩
  rw [hf.keep t (by omega), kp t (by omega)]

/-- Reading one element at a time, after the first. -/
theorem does_naryReads {o : NOp} {E : Ty} (hE : IntTy E) {i n : Nat} : ∀ {ss : List (Ty × Nat)} {vs r : List Value} {x : Value} {wx stk loc : List Val}
    {g : Store World} {s : St}, (ss.map Prod.snd).Nodup → (∀ y ∈ ss, n ≤ y.2 ∧ elemTy y.1 = E) → SeqsAt g.mem (p.reg g) loc i ss vs → Row i vs r →
    Inv p w s 0 g → Rep g.mem (p.reg g) E x wx →
    Does p w d er n 0 (naryReads o E ss) (wx.reverse ++ stk) stk loc g ((o.fold x r).out s)
      (fun y ws loc' g' => Rep g'.mem (p.reg g') E y ws ∧ SeqsAt g'.mem (p.reg g') loc' (i + 1) ss vs ∧
        ∀ t, (∀ y ∈ ss, t ≠ y.2) → loc'[t]? = loc[t]?)
  | [], [], [], x, wx, stk, loc, g, s, _, _, _, _, hi, hx =>
    Does.ends Steps.refl Fr.refl hi.host hi.st ⟨hx, trivial, fun _ _ => rfl⟩
  | (S, ofs) :: ss, v :: vs, y :: r, x, wx, stk, loc, g, s, hnd, hss, ⟨⟨h1, a, l, h2, h3⟩, h4⟩, ⟨⟨xs, e1, e2⟩, h5⟩, hi, hx => by
    have hroom := hi.room
    have hsp := hi.sp_lt
    obtain ⟨xs', a', l', e3, e4, e5, hl, hhas⟩ := rep_seq h1.1 h2
    cases e1.symm.trans e3
    cases e5
    have hilt := (List.getElem?_eq_some_iff.1 e2).1
    have hhi : a.toNat + l.toNat ≤ sp g := hhas.1
    have hmul : (i + 1) * unit S = i * unit S + unit S := Nat.succ_mul _ _
    have hle : (i + 1) * unit S ≤ xs.length * unit S := Nat.mul_le_mul_right _ (by omega)
    have ea : (a + BitVec.ofNat 32 (i * unit S)).toNat = a.toNat + i * unit S := add_toNat (by omega)
    have s1 := steps_readElem (M := p.M) (S := S) (o := ofs) (a := a + BitVec.ofNat 32 (i * unit S)) (stk := wx.reverse ++ stk) (loc := loc) (g := g)
      h1.1 h3 (by rw [ea]; omega)
    have hlt : ofs < loc.length := (List.getElem?_eq_some_iff.1 h3).1
    have hy := rep_elem h1.1 h2 hsp e1 e2
    obtain ⟨hno, hSE⟩ := hss (S, ofs) (by simp)
    have hno : n ≤ ofs := hno
    have hSE : elemTy S = E := hSE
    rw [hSE] at hy
    have hop := (Does.op (p := p) (w := w) (d := d) (er := er) (n := loc.length) (stk := stk) (loc := loc) (o := o) hE hx hy hi.host hi.st).lower
      (n := n) (by omega)
    simp only [naryReads]
    rw [fold_cons]
    have ecode : readElem S ofs ++ [.call (.std (NOp.std o E)), lget ofs, c32 (unit S), .b (.i32bin .add), lset ofs] ++ naryReads o E ss =
        readElem S ofs ++ ([.call (.std (NOp.std o E))] ++ ([lget ofs, c32 (unit S), .b (.i32bin .add), lset ofs] ++ naryReads o E ss)) := by simp
    rw [ecode]
    refine Does.steps0 s1 Fr.refl (Nat.le_refl _) ?_
    refine Does.bind (al := 0) (al' := 0) hop (Nat.le_refl _) ?_
    rintro c s' wc loc1 g1 - - hh hs ⟨hc, hf⟩
    have eloc : loc1 = loc := by
      refine List.ext_getElem? fun t => ?_
      by_cases ht : t < loc.length
      · exact hf.keep t ht
      · rw [List.getElem?_eq_none (by have := hf.len; omega), List.getElem?_eq_none (by omega)]
    subst eloc
    obtain ⟨loc2, el⟩ : ∃ x, x = loc1.set ofs (.i32 (a + BitVec.ofNat 32 ((i + 1) * unit S))) := ⟨_, rfl⟩
    have ea' : a + BitVec.ofNat 32 (i * unit S) + BitVec.ofNat 32 (unit S) = a + BitVec.ofNat 32 ((i + 1) * unit S) := by
      rw [hmul, BitVec.ofNat_add, BitVec.add_assoc]
    have s2 : Steps p.M [lget ofs, c32 (unit S), .b (.i32bin .add), lset ofs] (wc.reverse ++ stk) loc1 g1 (wc.reverse ++ stk) loc2 g1 := by
      refine Steps.of_wp fun Q => ?_
      obtain ⟨b1, e1⟩ := nth_some h3
      simp only [lget, lset, c32]
      wpl [e1, ea']
      rw [← el]
    simp only [List.map_cons, List.nodup_cons] at hnd
    have hne : ∀ y ∈ ss, y.2 ≠ ofs := fun y hy h => hnd.1 (List.mem_map.2 ⟨y, hy, h⟩)
    have h4' : SeqsAt g1.mem (p.reg g1) loc2 i ss vs := h4.mono hf.same hf.le fun y hy => by
      rw [el, List.getElem?_set_ne (hne y hy).symm]
    refine Does.steps0 s2 (Fr.locals (by rw [el]; simp) fun t ht => by rw [el, List.getElem?_set_ne (by omega)]) (Nat.le_refl _) ?_
    have ih := does_naryReads hE (n := n) (o := o) (wx := wc) (stk := stk) hnd.2 (fun y hy => hss y (by simp [hy])) h4' h5 (hi.step hf hh hs) hc
    refine ih.mono (Nat.le_refl _) ?_
    rintro y s'' us loc' g' - hf' ⟨k1, k2, k3⟩
    refine ⟨k1, ⟨⟨h1, a, l, ?_, ?_⟩, k2⟩, ?_⟩
    · exact (h2.mono hf.same hf.le).mono hf'.same hf'.le
    · rw [k3 ofs fun y hy => (hne y hy).symm, el, List.getElem?_set_self hlt]
    · intro q hq
      have := hq (S, ofs) (by simp)
      rw [k3 q fun y hy => hq y (by simp [hy]), el, List.getElem?_set_ne (by simpa using this.symm)]
  | [], _ :: _, _, _, _, _, _, _, _, _, _, h, _, _, _ => h.elim
  | _ :: _, [], _, _, _, _, _, _, _, _, _, h, _, _, _ => h.elim
  | [], [], _ :: _, _, _, _, _, _, _, _, _, _, h, _, _ => h.elim
  | _ :: _, _ :: _, [], _, _, _, _, _, _, _, _, _, h, _, _ => h.elim

/-- What `map` does with the next elements. -/
theorem row_fn {f : Fn} {E : Ty} {c : Cx} {ss : List (Ty × Nat)} {vs : List Value} {mn q len : Nat}
    (hC : ContractOk p.K) (hL : Linked p.K p.M) (hF : ∀ j, j < k → FnGood p.K p.M j) (hb : need p.K k ≤ p.base)
    (ht : fnTy p.K k wr f (ss.map fun x => elemTy x.1) E) (hT : hasInMem E = false) (cx : CxOk c w wr)
    (hss : ∀ x ∈ ss, mn < x.2 ∧ x.2 + 1 < q) (hnd : (ss.map Prod.snd).Nodup) (hmq : mn + 1 < q)
    (hl : q + 2 + (fnMap p.K f ss E (q + 2)).ls.length ≤ len) :
    RowGood p w d E ss vs mn q len (fnMap p.K f ss E (q + 2)).is (fun r s => f.apply (sem p.K.fns k) r c s) := by
  cases f with
  | user j =>
    obtain ⟨hj, fd, hf, hp, rfl, hw⟩ := ht
    have hca : callUser j fd.kind fd.ret (q + 2) = callCode j fd.kind fd.ret (q + 2) := by simp [callUser, hT]
    simp only [fnMap, hf, hca] at hl ⊢
    refine row_reads hss hnd hmq ?_
    intro r ws s loc g hlen hi hr
    rw [← hp] at hr
    simp only [Fn.apply]
    rw [sem_lt p.K.fns hj fd hf]
    refine (Does.callFn (p := p) (d := d) (er := false) (n := q + 2) (stk := []) (loc := loc) hL (hF j hj) hf (hC.fns j fd hf)
      (Nat.le_trans (need_le hj) hb) (cx.sub hw) hi (by omega) hr).mono (Nat.le_refl _) ?_
    rintro v s' us loc' g' - - ⟨hi', -, hv⟩
    exact hv.flat (hasInMem_flat hT)
  | word o =>
    simp only [fnMap] at hl ⊢
    refine row_reads hss hnd hmq ?_
    intro r ws s loc g hlen hi hr
    have := prim_post (p := p) (w := w) (d := d) (er := false) (n := q + 2) (stk := []) (loc := loc) ht.2 hr
      (by have := hi.room; omega) hi.host hi.st (by omega)
    rwa [light_pre ht.1] at this
  | and_ =>
    obtain ⟨rfl, h1, h3⟩ := ht
    refine row_reads hss hnd hmq ?_
    intro r ws s loc g hlen hi hr
    obtain ⟨bs, h4, h5⟩ := does_bools (p := p) (w := w) (d := d) (er := false) (n := q + 2) (stk := []) (loc := loc) (isAnd := true) h1 h3 hr hi.host hi.st
    simp only [Fn.apply, h4]
    simpa using h5
  | or_ =>
    obtain ⟨rfl, h1, h3⟩ := ht
    refine row_reads hss hnd hmq ?_
    intro r ws s loc g hlen hi hr
    obtain ⟨bs, h4, h5⟩ := does_bools (p := p) (w := w) (d := d) (er := false) (n := q + 2) (stk := []) (loc := loc) (isAnd := false) h1 h3 hr hi.host hi.st
    simp only [Fn.apply, h4]
    simpa using h5
  | nary o =>
    obtain ⟨h1, h3, h4⟩ := ht
    match ss, h3, h4, hss, hnd, hl with
    | [], h3, _, _, _, _ => exact absurd rfl h3
    | [x], _, h4, hss, hnd, hl =>
      simp only [fnMap] at hl ⊢
      refine row_reads hss hnd hmq ?_
      intro r ws s loc g hlen hi hr
      obtain rfl := h4 (elemTy x.1) (by simp)
      obtain ⟨y, r', us, rs, rfl, rfl, hy, rfl, rfl⟩ := hr
      have := Does.un (p := p) (w := w) (d := d) (er := false) (n := q + 2) (stk := []) (loc := loc) (o := o) h1 hy hi.host hi.st (by omega)
      simpa [Fn.apply, NOp.eval] using this
    | x :: x2 :: ss, _, h4, hss, hnd, hl =>
      simp only [fnMap] at hl ⊢
      intro i r s loc g hlen hsq hrow hi
      match vs, r, hsq, hrow with
      | v :: v2 :: vs, y :: y2 :: r, ⟨hq1, hq2⟩, ⟨hr1, hr2⟩ =>
        have hroom := hi.room
        simp only [List.map_cons, List.nodup_cons] at hnd
        have hne : ∀ y ∈ x2 :: ss, y.2 ≠ x.2 := fun y hy h => hnd.1 (by
          have := List.mem_map.2 ⟨y, hy, h⟩
          simpa using this)
        obtain ⟨ws, loc1, s1, len1, keep1, hrep, seqs1⟩ := steps_mapReads (p := p) (g := g) (b := p.reg g) (stk := []) (ss := [x]) (vs := [v]) (r := [y]) hi.sp_lt
          (show sp g ≤ _ by omega) (by simp) ⟨hq1, trivial⟩ ⟨hr1, trivial⟩
        obtain ⟨_, _, us, rs, he, rfl, hy, rfl, rfl⟩ := hrep
        cases he
        have hy : Rep g.mem (p.reg g) (elemTy x.1) y us := hy
        rw [h4 (elemTy x.1) (by simp)] at hy
        have hx0 := hss x (by simp)
        have sq1 : SeqsAt g.mem (p.reg g) loc1 i (x2 :: ss) (v2 :: vs) := hq2.mono (fun _ _ _ => rfl) ⟨Nat.le_refl _, fun _ _ h => h⟩ fun y hy =>
          keep1 _ (by simpa using hne y hy)
        have h2 := does_naryReads (p := p) (w := w) (d := d) (er := false) (o := o) (n := mn + 1) (stk := []) h1
          (show ((x2 :: ss).map Prod.snd).Nodup by simpa using hnd.2)
          (fun y hy => ⟨by have := hss y (by simp at hy ⊢; exact .inr hy); omega, h4 _ (List.mem_map.2 ⟨y, by simp at hy ⊢; exact .inr hy, rfl⟩)⟩) sq1 hr2 hi hy
        refine Does.steps0 s1 (Fr.locals len1 fun t ht => keep1 t (by simp; omega)) (Nat.le_refl _) ?_
        simp only [List.append_nil]
        simp only [List.append_nil] at h2
        refine h2.mono (Nat.le_refl _) ?_
        rintro u s' us loc' g' - hf ⟨k1, k2, k3⟩
        refine ⟨k1, ⟨?_, k2⟩, fun t ht => ?_⟩
        · exact (seqs1.mono (b' := p.reg g') (m' := g'.mem) (loc' := loc') hf.same hf.le fun y hy => by
            simp at hy; subst hy
            exact k3 _ fun z hz => (hne z hz).symm).1
        · rw [k3 t fun y hy => by have := hss y (List.mem_cons_of_mem _ hy); omega, keep1 t (by simp; omega)]

theorem wp_mapLoop {f : Fn} {E : Ty} {c : Cx} {rc : List Instr} {ss : List (Ty × Nat)} {vs : List Value} {vss : List (List Value)} {mn q z m : Nat}
    {body : List Instr}
    (hrow : RowGood (p.res (sp g0) z) w (d + 2) E ss vs mn q loc0.length rc (fun r s => f.apply (sem p.K.fns k) r c s))
    (hvs : vs.mapM seqElems = some vss) (hrows : (rows vss).length = least vs)
    (hss : ∀ x ∈ ss, mn < x.2 ∧ x.2 + 1 < q) (hmq : mn + 1 < q)
    (hz : least vs * typeSize E ≤ z) (hm : q + 2 ≤ m)
    (hlo : m + (writeMem q E 0 m).ls.length ≤ loc0.length)
    (hbody : body = [lget (q + 1), lget mn, .b (.i32rel .geU), .brIf 1] ++ (rc ++
      ((writeMem q E 0 m).is ++ [lget q, c32 (typeSize E), .b (.i32bin .add), lset q,
        lget (q + 1), c32 1, .b (.i32bin .add), .b (.localTee (q + 1)), .br 0]))) :
    ∀ (rs : List (List Value)) (us : List Value) (s : St) (loc : List Val) (g : Store World), us.length ≤ least vs →
      (rows vss).drop us.length = rs → MapAt p w E ss vs mn q z loc0 g0 us s loc g →
      ((mapRows (sem p.K.fns k) f c rs s).bind fun us' s => .val (Value.list (us ++ us')) s) ≠ .deviates →
      WP p.M [.loop 0 0 body] [] loc g (blockK p.M 0 [] stk (Post p w d er (mn + 1) z stk loc0 g0
        ((mapRows (sem p.K.fns k) f c rs s).bind fun us' s => .val (.list (us ++ us')) s) (Mapped p E (least vs) q g0 z))) := by
  intro rs
  induction rs with
  | nil =>
    intro us s loc g hle hd h _
    have hlen : us.length = least vs := by
      have := congrArg List.length hd
      simp at this; omega
    have hmx := least_max vs
    obtain ⟨b1, e1⟩ := nth_some h.l1
    obtain ⟨b2, e2⟩ := nth_some h.lm
    rw [wp_loop0]
    generalize hK : loopK p.M 0 0 body [] [] _ = K
    rw [hbody]
    simp only [lget, List.cons_append, List.nil_append]
    wpl [e1, e2]
    rw [hlen, if_neg (by simp)]
    subst hK
    rw [loopK_brS, blockK_br0, wp_nil]
    simp only [mapRows, Out.bind, List.append_nil]
    exact ⟨[], loc, g, rfl, h.fr, h.inv.host, h.inv.st, rfl, h.lb, us, rfl, hlen, h.hold, h.out⟩
  | cons r rs ih =>
    intro us s loc g hle hd h hdev
    have hi : (rows vss)[us.length]? = some r := by
      have := congrArg (·[0]?) hd
      simpa using this
    have hdn : (rows vss).drop (us.length + 1) = rs := by rw [← List.drop_drop, hd]; rfl
    have hilt := (List.getElem?_eq_some_iff.1 hi).1
    rw [hrows] at hilt
    have hrw := rows_at hvs hi
    have hmx := least_max vs
    have hsmall := h.inv.sp_lt
    have room : sp g + 0 + p.base ≤ g.mem.size := h.inv.room
    have lenl := h.fr.len
    generalize hii : us.length = i at *
    have hmul : (i + 1) * typeSize E = i * typeSize E + typeSize E := Nat.succ_mul _ _
    have hlez : (i + 1) * typeSize E ≤ least vs * typeSize E := Nat.mul_le_mul_right _ (by omega)
    have hl0 := h.l0
    have hl1 := h.l1
    have hlm := h.lm
    rw [hii] at hl0 hl1
    have s0 : Steps p.M [lget (q + 1), lget mn, .b (.i32rel .geU), .brIf 1] [] loc g [] loc g := by
      obtain ⟨b1, e1⟩ := nth_some hl1
      obtain ⟨b2, e2⟩ := nth_some hlm
      refine Steps.of_wp fun Q => ?_
      simp only [lget]
      wpl [e1, e2]
      rw [if_pos]
      rw [toNat_ofNat32 (by omega), toNat_ofNat32 (by omega)]
      omega
    have dc := hrow i r s loc g lenl (hii ▸ h.seqs) hrw h.inv
    beta_reduce at dc
    simp only [mapRows] at hdev ⊢
    rw [bind_assoc] at hdev ⊢
    rw [wp_loop0]
    generalize hK : loopK p.M 0 0 body [] [] _ = K
    rw [hbody]
    refine (s0 _ _).2 ?_
    rw [wp_append]
    refine WP.mono (show WP p.M _ _ loc g _ from dc (bind_ne hdev)) ?_
    intro x hr
    revert hr hdev
    cases ho : f.apply (sem p.K.fns k) r c s with
    | ret v s' => intro _ hr; exact absurd hr.1 (by decide)
    | fail cd =>
      intro _ hr
      obtain ⟨g', rfl, hg⟩ := hr
      subst hK
      rw [ho]
      exact ⟨g', rfl, hg⟩
    | deviates => intro hdev; exact absurd rfl hdev
    | wrong => intro _ hr; exact hr.elim
    | val y s' =>
      rintro hdev ⟨ws', loc2, g2, rfl, f2, hh, hs, hy2, seqs1, hq0⟩
      rw [seqK_norm]
      have inv2 : Inv (p.res (sp g0) z) w s' 0 g2 := h.inv.step f2 hh hs
      have len2 := f2.len
      have hsp : (g0.g32 .stackPointer).toNat = sp g0 := rfl
      have lo2 := f2.lo
      have hold := h.hold
      have room2 : sp g2 + 0 + p.base ≤ g2.mem.size := inv2.room
      have ea : (g0.g32 .stackPointer + BitVec.ofNat 32 (i * typeSize E)).toNat = sp g0 + i * typeSize E := by
        rw [add_toNat (by omega), hsp]
      obtain ⟨loc3, m3, k1, k2, k3, k4, k5, k6⟩ := hold_store (p := p) (T := E) (stk := []) (off := 0) (ol := q) (m := m)
        (a := g0.g32 .stackPointer + BitVec.ofNat 32 (i * typeSize E)) (a0 := sp g0) (Z := z) (loc := loc2) (g := g2)
        (by rw [hq0 q (by omega), hl0]) (by omega) (by omega) (by rw [ea]; omega) hy2 (by rw [ea]; omega) (by rw [ea]; omega)
      rw [ea, Nat.add_zero] at k5 k6
      refine (k1 _ _).2 ?_
      have hin : ∀ t, t < sp g0 ∨ sp g0 + z ≤ t → m3.byte t = g2.mem.byte t := fun t ht => k5 t (by omega)
      have same3 : Same ((p.res (sp g0) z).reg g2) g2.mem m3 := by
        intro t _ h2
        refine hin t ?_
        by_cases hq : t < sp g0 ∨ sp g0 + z ≤ t
        · exact hq
        · exact absurd (Or.inr ⟨by omega, by omega⟩) h2
      have c0 : loc3[q]? = some (.i32 (g0.g32 .stackPointer + BitVec.ofNat 32 (i * typeSize E))) := by
        rw [k3 q (by omega), hq0 q (by omega), hl0]
      have c1 : loc3[q + 1]? = some (.i32 (BitVec.ofNat 32 i)) := by rw [k3 _ (by omega), hq0 _ (by omega), hl1]
      have cm : loc3[mn]? = some (.i32 (BitVec.ofNat 32 (least vs))) := by rw [k3 _ (by omega), hq0 _ (by omega), hlm]
      obtain ⟨b0, e0⟩ := nth_some c0
      obtain ⟨b1, e1⟩ := nth_some c1
      have ea' : g0.g32 .stackPointer + BitVec.ofNat 32 (i * typeSize E) + BitVec.ofNat 32 (typeSize E) =
          g0.g32 .stackPointer + BitVec.ofNat 32 ((i + 1) * typeSize E) := by
        rw [hmul, BitVec.ofNat_add, BitVec.add_assoc]
      have ei : BitVec.ofNat 32 i + BitVec.ofNat 32 1 = BitVec.ofNat 32 (i + 1) := (BitVec.ofNat_add ..).symm
      obtain ⟨loc4, e4⟩ : ∃ x, x = (loc3.set q (.i32 (g0.g32 .stackPointer + BitVec.ofNat 32 ((i + 1) * typeSize E)))).set (q + 1)
        (.i32 (BitVec.ofNat 32 (i + 1))) := ⟨_, rfl⟩
      have kp4 : ∀ t, t < q → loc4[t]? = loc2[t]? := fun t ht => by
        rw [e4, List.getElem?_set_ne (by omega), List.getElem?_set_ne (by omega), k3 t (by omega)]
      have fr4 : Fr (mn + 1) z loc0 loc4 g0 (g2.setMem m3) := by
        have f3 := (h.fr.trans f2 (Nat.le_refl _)).write (m := m3) (fun t ht => hin t (.inl ht)) k4
        refine f3.trans (n' := mn + 1) (al' := 0) (Fr.locals (by rw [e4]; simp [k2]) fun t ht => ?_) (Nat.le_refl _)
        rw [kp4 t (by omega)]
      have inv3 : Inv (p.res (sp g0) z) w s' 0 (g2.setMem m3) := by
        refine ⟨inv2.host, inv2.st, fun bs hb => ?_, inv2.holes, ?_, ?_⟩
        · have := inv2.lits bs hb
          refine ⟨this.1, ?_⟩
          show bytesAt m3 _ _ = _
          rw [bytesAt_eq (m := g2.mem) fun q h1 h2 => same3 q (Nat.lt_of_lt_of_le h2 this.1.1) (this.1.2 q h1 h2), this.2]
        · show sp g2 + 0 + p.base ≤ m3.size
          rw [k4]; exact room2
        · show m3.size + 65536 ≤ _
          rw [k4]; exact inv2.small
      have seqs4 : SeqsAt m3 ((p.res (sp g0) z).reg g2) loc4 (i + 1) ss vs :=
        (seqs1.mono (m' := g2.mem) (b' := (p.res (sp g0) z).reg g2) (fun _ _ _ => rfl) ⟨Nat.le_refl _, fun _ _ h => h⟩ (loc' := loc4) fun x hx => kp4 _ (by have := hss x hx; omega)).mono same3 ⟨Nat.le_refl _, fun _ _ h => h⟩ fun _ _ => rfl
      have out4 : ElemsAt m3 ((p.res (sp g0) z).reg g2) E (sp g0) (us ++ [y]) := by
        have h1 : ElemsAt g2.mem ((p.res (sp g0) z).reg g2) E (sp g0) us :=
          h.out.mono f2.same f2.le fun t _ ht => f2.mem t (by rw [hii] at ht; omega)
        exact ElemsAt.snoc (h1.mono same3 ⟨Nat.le_refl _, fun _ _ h => h⟩ fun t _ ht => k5 t (.inl (by rw [hii] at ht; omega)))
          (by rw [hii]; exact k6)
      simp only [lget, lset, c32]
      wpl [e0, e1, ea', ei]
      rw [← e4]
      subst hK
      show WP p.M [.loop 0 0 body] [] loc4 (g2.setMem m3) _
      have := ih (us ++ [y]) s' loc4 (g2.setMem m3) (by simp [hii]; omega) (by simp [hii, hdn])
        ⟨fr4, by show _ ≤ sp g2; omega, inv3, by rw [List.length_append, hii]; exact seqs4, out4, ?_, ?_, ?_, ?_⟩
      · rw [ho]
        have hv : ∀ {α β : Type} (a : α) (s : St) (h : α → St → Out β), (Out.val a s).bind h = h a s := fun _ _ _ => rfl
        simp only [hv, bind_assoc, List.append_assoc, List.singleton_append] at this hdev ⊢
        exact this hdev
      · rw [e4, List.getElem?_set_ne (by omega), List.getElem?_set_self (by omega)]; simp [hii]
      · rw [e4, List.getElem?_set_self (by simp; omega)]; simp [hii]
      · rw [e4, List.getElem?_set_ne (by omega), List.getElem?_set_ne (by omega), k3 _ (by omega), hq0 _ (by omega), h.lb]
      · rw [e4, List.getElem?_set_ne (by omega), List.getElem?_set_ne (by omega), cm]

theorem wp_i32divS {σ : Type} {M : Wasm.Mod σ} {a b : BitVec 32} {is : List Instr} {stk loc : List Val} {g : Store σ}
    {Q : Res σ → Prop} (h : b ≠ 0#32) (ha : a.toNat < 2 ^ 31) (hb : b.toNat < 2 ^ 31) :
    WP M (.b (.i32div .divS) :: is) (.i32 b :: .i32 a :: stk) loc g Q ↔ WP M is (.i32 (a / b) :: stk) loc g Q := by
  have h1 : a ≠ BitVec.intMin 32 := by
    rintro rfl
    revert ha
    decide
  have ma : a.msb = false := BitVec.msb_eq_false_iff_two_mul_lt.2 (by omega)
  have mb : b.msb = false := BitVec.msb_eq_false_iff_two_mul_lt.2 (by omega)
  have h2 : a.sdiv b = a / b := by simp only [BitVec.sdiv_eq, ma, mb]; rfl
  rw [wp_b]; simp only [stepB, IDiv.eval, if_neg h, h1, false_and, if_false, h2, stepK]

theorem toInt_small {x : Nat} (h : x < 2 ^ 31) : (BitVec.ofNat 32 x).toInt = x := by
  rw [BitVec.toInt_eq_toNat_of_lt (by rw [toNat_ofNat32 (by omega)]; omega), toNat_ofNat32 (by omega)]

theorem steps_mapCount {σ : Type} {M : Wasm.Mod σ} {S : Ty} {mn q mv cnt : Nat} {o l : BitVec 32} {stk loc : List Val} {g : Store σ}
    (hu : 0 < unit S) (hl : l.toNat = cnt * unit S) (hs : cnt * unit S < 2 ^ 31) (hmv : mv ≤ 2147483647)
    (hmn : loc[mn]? = some (.i32 (BitVec.ofNat 32 mv))) (h1 : mn < q) (h2 : q + 1 < loc.length) (hu2 : unit S < 2 ^ 31) :
    ∃ loc', Steps M (mapCount S mn q) ([.i32 l, .i32 o] ++ stk) loc g stk loc' g ∧ loc'.length = loc.length ∧
      (∀ t, t ≠ mn → t ≠ q → t ≠ q + 1 → loc'[t]? = loc[t]?) ∧ loc'[mn]? = some (.i32 (BitVec.ofNat 32 (min mv cnt))) ∧
      loc'[q + 1]? = some (.i32 o) := by
  have eu : (BitVec.ofNat 32 (unit S)).toNat = unit S := toNat_ofNat32 (by omega)
  have hu0 : BitVec.ofNat 32 (unit S) ≠ 0#32 := by
    intro h
    rw [h] at eu
    simp at eu
    omega
  have hcle : cnt ≤ cnt * unit S := Nat.le_mul_of_pos_right _ hu
  have ed : l / BitVec.ofNat 32 (unit S) = BitVec.ofNat 32 cnt := by
    apply BitVec.eq_of_toNat_eq
    rw [BitVec.toNat_udiv, hl, eu, Nat.mul_div_cancel _ hu, toNat_ofNat32 (by omega)]
  obtain ⟨b0, e0⟩ := nth_some hmn
  obtain ⟨loc1, el⟩ : ∃ x, x = loc.set q (.i32 (BitVec.ofNat 32 cnt)) := ⟨_, rfl⟩
  have hmn1 : loc1[mn]? = some (.i32 (BitVec.ofNat 32 mv)) := by rw [el, List.getElem?_set_ne (by omega), hmn]
  obtain ⟨b1, e1⟩ := nth_some hmn1
  have len1 : loc1.length = loc.length := by rw [el]; simp
  have hq1 : loc1[q]? = some (.i32 (BitVec.ofNat 32 cnt)) := by rw [el, List.getElem?_set_self (by omega)]
  obtain ⟨b2, e2⟩ := nth_some hq1
  have st1 : Steps M [c32 (unit S), .b (.i32div .divS), .b (.localTee q), lget q, lget mn, .b (.i32rel .leS)] ([.i32 l, .i32 o] ++ stk) loc g
      (.i32 (b32 (cnt ≤ mv)) :: ([.i32 (BitVec.ofNat 32 cnt)] ++ (.i32 o :: stk))) loc1 g := by
    refine Steps.of_wp fun Q => ?_
    simp only [lget, c32, List.cons_append, List.nil_append]
    wpl
    rw [wp_i32divS hu0 (by omega) (by omega), ed]
    wpl [← el, e1, e2, toInt_small (show cnt < 2 ^ 31 by omega), toInt_small (show mv < 2 ^ 31 by omega)]
    simp only [Int.ofNat_le]
  have st2 : ∀ loc2, loc2 = (if cnt ≤ mv then loc1.set mn (.i32 (BitVec.ofNat 32 cnt)) else loc1) →
      Steps M [.ite 1 0 [lset mn] [.b .drop]] (.i32 (b32 (cnt ≤ mv)) :: ([.i32 (BitVec.ofNat 32 cnt)] ++ (.i32 o :: stk))) loc1 g
        ([] ++ (.i32 o :: stk)) loc2 g := by
    rintro _ rfl
    refine steps_ite rfl ?_
    by_cases h : cnt ≤ mv
    · rw [if_pos h, if_neg (by simp [b32, h])]
      exact steps_set (by omega)
    · rw [if_neg h, if_pos (by simp [b32, h])]
      exact Steps.of_wp fun Q => by wpl
  obtain ⟨loc2, e2'⟩ : ∃ x, x = (if cnt ≤ mv then loc1.set mn (.i32 (BitVec.ofNat 32 cnt)) else loc1) := ⟨_, rfl⟩
  have len2 : loc2.length = loc.length := by rw [e2']; split <;> simp [len1]
  refine ⟨loc2.set (q + 1) (.i32 o), ?_, by simp [len2], ?_, ?_, by rw [List.getElem?_set_self (by omega)]⟩
  · exact (st1.append (st2 loc2 e2')).append (steps_set (by omega))
  · intro t h3 h4 h5
    rw [List.getElem?_set_ne (by omega), e2']
    split
    · rw [List.getElem?_set_ne (by omega), el, List.getElem?_set_ne (by omega)]
    · rw [el, List.getElem?_set_ne (by omega)]
  · rw [List.getElem?_set_ne (by omega), e2']
    split
    · rename_i h
      rw [List.getElem?_set_self (by omega), Nat.min_eq_right h]
    · rename_i h
      rw [hmn1, Nat.min_eq_left (by omega)]

theorem evals_length {es : Exprs} : ∀ {ρ : Env} {c : Cx} {s s' : St} {vs : List Value}, evals call es ρ c s = .val vs s' → vs.length = (tys es).length := by
  induction es using Exprs.rec (motive_1 := fun _ => True) (motive_3 := fun _ => True) with
  | nil => intro ρ c s s' vs h; simp only [evals] at h; cases h; rfl
  | cons T e es _ ih =>
    intro ρ c s s' vs h
    simp only [evals] at h
    cases h1 : eval call e ρ c s with
    | val v s1 =>
      rw [h1] at h
      simp only [Out.bind] at h
      cases h2 : evals call es ρ c s1 with
      | val us s2 =>
        rw [h2] at h
        cases h
        simp [tys, ih h2]
      | _ => rw [h2] at h; cases h
    | _ => rw [h1] at h; cases h
  | _ => trivial

/-- The code that evaluates the sequences of `map`, before any code. -/
def MsGood (p : P) (k : Nat) (call : FSem) (wr : Bool) (es : Exprs) : Prop :=
  ∀ first er Δ Γ ρ n0 al0 al ll0 n w c s0 s d stk loc0 g0 loc g (acc : List (Ty × Nat)) (vs0 : List Value) is'
    (f : List Value → St → Out Value) Q2,
    wtMap p.K k wr p.R es first er Δ → Ok p wr c w s0 Δ Γ ρ n0 al ll0 loc0 g0 → Fr n0 al0 loc0 loc g0 g →
    g.host = Gen.put w s → StOk p.K w.contract s → n0 < n →
    n + (compileMap p.K p.R n0 es first d Γ n).1.ls.length ≤ n0 + ll0 → al0 + (compileMap p.K p.R n0 es first d Γ n).1.al ≤ al →
    loc[n0]? = some (.i32 (BitVec.ofNat 32 (least vs0))) → (∀ x ∈ acc, n0 < x.2 ∧ x.2 < n) →
    (acc.map Prod.snd).Nodup → SeqsAt g.mem (p.reg g) loc 0 acc vs0 →
    (∀ vs s' loc' g' ss, Fr n0 (al0 + (compileMap p.K p.R n0 es first d Γ n).1.al) loc0 loc' g0 g' → g'.host = Gen.put w s' →
      StOk p.K w.contract s' → ss = acc ++ (compileMap p.K p.R n0 es first d Γ n).2 →
      (∀ x ∈ ss, n0 < x.2 ∧ x.2 < n + (compileMap p.K p.R n0 es first d Γ n).1.ls.length) → (ss.map Prod.snd).Nodup →
      ss.map Prod.fst = acc.map Prod.fst ++ tys es → SeqsAt g'.mem (p.reg g') loc' 0 ss (vs0 ++ vs) →
      loc'[n0]? = some (.i32 (BitVec.ofNat 32 (least (vs0 ++ vs)))) → From p w d er n0 al is' stk stk loc0 g0 loc' g' (f vs s') Q2) →
    From p w d er n0 al ((compileMap p.K p.R n0 es first d Γ n).1.is ++ is') stk stk loc0 g0 loc g ((evals call es ρ c s).bind f) Q2

theorem good_ms_nil : MsGood p k call wr .nil := by
  intro first er Δ Γ ρ n0 al0 al ll0 n w c s0 s d stk loc0 g0 loc g acc vs0 is' f Q2 _ ok hf hh hs hn hl ha hmn hac hnd hsq next
  simp only [compileMap, evals, Out.bind, List.nil_append]
  exact next [] s loc g _ (by simpa [compileMap] using hf) hh hs rfl (by simpa [compileMap] using hac) (by simpa [compileMap] using hnd) (by simp [compileMap, tys])
    (by simpa [compileMap] using hsq) (by simpa using hmn)

theorem first_rep {S : Ty} {e : Expr} {first er : Bool} {Δ : TEnv} {Γ : Scope} (hS : SeqOk S)
    (h : (wt p.K k wr p.R e er Δ S ∧ (first = true → mapTy S = S ∨ fixedCode e = true)) ∨
        (first = true ∧ SeqOk (mapTy S) ∧ wt p.K k wr p.R e er Δ (mapTy S) ∧ ∃ es', e = .list es' ∧ (tys es').length ≤ maxLen S)) :
    ∃ U, wt p.K k wr p.R e er Δ U ∧ (∀ d n, compile p.K p.R e U d Γ n = compile p.K p.R e (if first then mapTy S else S) d Γ n) ∧
      ∀ {m b v ws ρ c s s'}, eval call e ρ c s = .val v s' → Rep m b U v ws → Rep m b S v ws := by
  rcases h with ⟨h1, h2⟩ | ⟨rfl, h1, h2, es', rfl, h3⟩
  · refine ⟨S, h1, fun d n => ?_, fun _ h => h⟩
    cases first with
    | false => rfl
    | true =>
      rcases h2 rfl with h2 | h2
      · simp [h2]
      · cases e <;> simp [fixedCode] at h2 <;> simp only [compile]
  · refine ⟨mapTy S, h2, fun _ _ => rfl, ?_⟩
    intro m b v ws ρ c s s' hv hr
    cases S with
    | list q E =>
      simp only [mapTy, Rep] at hr ⊢
      obtain ⟨us, o, l, rfl, k1, k2⟩ := hr
      refine ⟨us, o, l, rfl, ?_, k2⟩
      simp only [eval] at hv
      cases he : evals call es' ρ c s with
      | val ys s2 =>
        rw [he] at hv
        simp only [Out.bind, Out.val.injEq, Value.list.injEq] at hv
        rw [← hv.1, evals_length he]
        exact h3
      | _ => rw [he] at hv; cases hv
    | _ => exact hr

theorem good_ms_cons {S : Ty} {e : Expr} {es : Exprs} (he : ∀ H, EGood { p with H := H } k call wr e)
    (hes : MsGood p k call wr es) : MsGood p k call wr (.cons S e es) := by
  intro first er Δ Γ ρ n0 al0 al ll0 n w c s0 s d stk loc0 g0 loc g acc vs0 is' f Q2 ht ok hf hh hs hn hl ha hmn hac hnd hsq next
  simp only [wtMap] at ht
  obtain ⟨hS, hbig, h1, h2⟩ := ht
  rw [Nat.succ_mul] at hbig
  obtain ⟨U, hU, hcode, hrep⟩ := first_rep (call := call) (Γ := Γ) hS h1
  simp only [compileMap, List.length_append, List.length_cons] at hl ha next ⊢
  simp only [evals, bind_assoc, List.append_assoc]
  generalize hA : compile p.K p.R e (if first then mapTy S else S) d Γ n = A at *
  rw [← hcode] at hA
  generalize hB : compileMap p.K p.R n0 es false d Γ (n + A.ls.length + 2) = B at *
  refine EGood.from (Z := 0) he hU hA ok hf hf.lo hh hs (by omega) (by omega) (by omega) (Nat.le_refl _) ?_
  intro v s1 ws loc1 g1 hev hf1 hf1' hh1 hs1 hr
  have hr := hrep hev hr.unhold
  obtain ⟨xs, o, l, hxs, hmax, rfl, hlx, hhas⟩ := rep_seq hS.1 hr
  have hle : xs.length * unit S ≤ maxLen S * unit S := Nat.mul_le_mul_right _ hmax
  have hlocs := ok.locs
  have len1 := hf1.len
  have hpos := hS.pos
  have hmn1 : loc1[n0]? = some (.i32 (BitVec.ofNat 32 (least vs0))) := by rw [hf1'.keep n0 hn, hmn]
  obtain ⟨loc2, k1, k2, k3, k4, k5⟩ := steps_mapCount (M := p.M) (S := S) (mn := n0) (q := n + A.ls.length) (o := o) (l := l) (stk := stk)
    (loc := loc1) (g := g1) hpos hlx (by omega) (least_max vs0) hmn1 (by omega) (by omega)
    (by omega)
  refine From.steps k1 ?_
  have hf2 : Fr n0 (al0 + A.al) loc0 loc2 g0 g1 := by
    refine hf1.trans (n' := n0) (al' := 0) (Fr.locals k2 fun t ht => k3 t (by omega) (by omega) (by omega)) (Nat.le_refl _)
  have hlast : SeqsAt g1.mem (p.reg g1) loc2 0 [(S, n + A.ls.length + 1)] [v] :=
    ⟨⟨hS, o, l, hr, by rw [k5]; simp⟩, trivial⟩
  have hold : SeqsAt g1.mem (p.reg g1) loc2 0 acc vs0 := hsq.mono hf1'.same hf1'.le fun x hx => by
    have := hac x hx
    rw [k3 _ (by omega) (by omega) (by omega), hf1'.keep _ (by omega)]
  have hac2 : ∀ x ∈ acc ++ [(S, n + A.ls.length + 1)], n0 < x.2 ∧ x.2 < n + A.ls.length + 2 := by
    intro x hx
    rcases List.mem_append.1 hx with hx | hx
    · have := hac x hx; omega
    · simp at hx; subst hx; exact ⟨by show n0 < n + A.ls.length + 1; omega, by show n + A.ls.length + 1 < _; omega⟩
  have hnd2 : ((acc ++ [(S, n + A.ls.length + 1)]).map Prod.snd).Nodup := by
    rw [List.map_append, List.nodup_append]
    refine ⟨hnd, by simp, ?_⟩
    intro a ha b hb
    simp at hb; subst hb
    obtain ⟨x, hx, rfl⟩ := List.mem_map.1 ha
    have := hac x hx; omega
  have := hes false er Δ Γ ρ n0 (al0 + A.al) al ll0 (n + A.ls.length + 2) w c s0 s1 d stk loc0 g0 loc2 g1
    (acc ++ [(S, n + A.ls.length + 1)]) (vs0 ++ [v]) is' (fun vs s => f (v :: vs) s) Q2 h2 ok hf2 hh1 hs1 (by omega)
    (by rw [hB]; omega) (by rw [hB]; omega) (by rw [k4, least_snoc, count_eq hxs]) hac2 hnd2 (hold.snoc hlast) ?_
  · rw [hB] at this
    exact this
  · rw [hB]
    intro vs s' loc' g' ss h1 h2 h3 h4 h5 h6 h7 h8 h9
    have e : vs0 ++ [v] ++ vs = vs0 ++ v :: vs := by simp
    rw [e] at h8 h9
    exact next (v :: vs) s' loc' g' ss (by rw [← Nat.add_assoc]; exact h1) h2 h3 (by rw [h4]; simp) (fun x hx => by have := h5 x hx; omega) h6
      (by rw [h7]; simp [tys]) h8 h9

theorem fnMap_al {K : Ctx} {f : Fn} {ss : List (Ty × Nat)} {E : Ty} {Ts : List Ty} {n : Nat} (hT : hasInMem E = false)
    (ht : fnTy K k wr f Ts E) : (fnMap K f ss E n).al = 0 := by
  cases f with
  | user j =>
    obtain ⟨-, fd, hf, -, rfl, -⟩ := ht
    simp only [fnMap, hf, callUser, hT]
    cases fd.kind <;> rfl
  | word q => exact primPost_al ..
  | nary o =>
    match ss with
    | [] => rfl
    | [x] => exact unCode_al
    | _ :: _ :: _ => rfl
  | and_ => rfl
  | or_ => rfl

theorem good_map (hC : ContractOk p.K) (hL : Linked p.K p.M) (hF : ∀ j, j < k → FnGood p.K p.M j)
    (hb : need p.K k ≤ p.base) {f : Fn} {es : Exprs} (hes : MsGood p k (sem p.K.fns k) wr es) :
    EGood p k (sem p.K.fns k) wr (.map f es) := by
  intro T er Δ Γ ρ n w c s d stk loc g ht ok
  simp only [wt] at ht
  obtain ⟨q, E, rfl, hST, hT, hne, hts, ⟨U, hU, hUq⟩, hft⟩ := ht
  have hZ : stackLocalSize (.list q E) false true = q * typeSize E := rfl
  simp only [compile, elemTy, List.length_append, List.length_cons, List.length_nil] at ok
  simp only [compile, elemTy, eval]
  generalize stackLocalSize (.list q E) false true = z at *
  generalize hA : compileMap p.K p.R n es (isUser f) d Γ (n + 1) = A at *
  generalize hn1 : n + 1 + A.1.ls.length = n1 at *
  have hcal : (fnMap p.K f A.2 E (n1 + 3)).al = 0 := fnMap_al hT hft
  generalize hCC : fnMap p.K f A.2 E (n1 + 3) = C at *
  generalize hm : n1 + 3 + C.ls.length = m at *
  rw [hcal] at ok ⊢
  simp only [List.append_assoc]
  have hL0 := ok.locs
  obtain ⟨loc1, e1⟩ : ∃ x, x = loc.set n (.i32 2147483647#32) := ⟨_, rfl⟩
  have st1 : Steps p.M [c32 2147483647, lset n] stk loc g stk loc1 g := by
    refine Steps.of_wp fun Q => ?_
    simp only [c32, lset]
    wpl
    rw [← e1]
  have hf1 : Fr n 0 loc loc1 g g := Fr.locals (by rw [e1]; simp) fun t ht => by rw [e1, List.getElem?_set_ne (by omega)]
  refine (From.steps (is := [_, _]) st1 ?_).does
  have hroom := ok.inv.room
  have hsmall := ok.inv.small
  have := hes (isUser f) er Δ Γ ρ n 0 (A.1.al + z + 0) _ (n + 1) w c s s d stk loc g loc1 g [] []
    (allocCode n1 z ++ ([lget n1, lset (n1 + 1), c32 0, lset (n1 + 2)] ++
      (mapLoop E C.is (writeMem (n1 + 1) E 0 m).is n (n1 + 1) ++
        [lget n1, lget n, c32 (typeSize E), .b (.i32bin .mul)])))
    (fun vs s => match vs.mapM seqElems with
      | some vss => (mapRows (sem p.K.fns k) f c (rows vss) s).bind fun us s => .val (.list us) s
      | none => .wrong) (IsRep p (.list q E)) hts ok hf1 ok.inv.host ok.inv.st (by omega) (by rw [hA]; omega) (by rw [hA]; omega)
    (by rw [e1, List.getElem?_set_self (by omega)]; rfl) (by simp) (by simp) trivial ?_
  · rw [hA] at this
    exact this
  rw [hA]
  intro vs s2 loc2 g2 ss hf2 hh2 hs2 hss hssl hnd hty hsq hmn
  simp only [List.nil_append, List.map_nil, Nat.zero_add] at hss hty hsq hmn hf2
  subst hss
  rw [hn1] at hssl
  obtain ⟨⟨vss, hvss⟩, hcnt, hmaxs, hlen⟩ := hsq.elems
  rw [hvss]
  dsimp only
  have hlo2 := hf2.lo
  have hhi2 := hf2.hi
  have hsz2 := hf2.size
  have len2 := hf2.len
  have hvne : vs ≠ [] := by
    rintro rfl
    have h1 := congrArg List.length hty
    simp at h1 hlen
    cases es with
    | nil => exact hne rfl
    | cons _ _ _ => simp [tys] at h1; omega
  obtain ⟨u, hu, hcu⟩ := hmaxs U (by rw [hty]; exact hU)
  have hrl : (rows vss).length = least vs := rows_least hvss hvne ⟨u, hu, hcnt u hu⟩
  have hlq : least vs ≤ q := Nat.le_trans (least_le hu) (Nat.le_trans hcu hUq)
  have hlz : least vs * typeSize E ≤ z := by rw [hZ]; exact Nat.mul_le_mul_right _ hlq
  obtain ⟨loc3, g3, h1, hf3, h3, h4, h5, h6, h7⟩ := steps_alloc (M := p.M) (stk := stk) (n := n1) (loc := loc2) (g := g2)
    (size := z) (by omega) (by omega)
  have len3 := hf3.len
  obtain ⟨loc4, e4⟩ : ∃ x, x = (loc3.set (n1 + 1) (.i32 (g2.g32 .stackPointer))).set (n1 + 2) (.i32 0#32) := ⟨_, rfl⟩
  have st4 : Steps p.M [lget n1, lset (n1 + 1), c32 0, lset (n1 + 2)] stk loc3 g3 stk loc4 g3 := by
    obtain ⟨b1, q1⟩ := nth_some h3
    refine Steps.of_wp fun Q => ?_
    simp only [lget, lset, c32]
    wpl [q1]
    rw [← e4]
  have kp4 : ∀ t, t < n1 → loc4[t]? = loc2[t]? := fun t ht => by
    rw [e4, List.getElem?_set_ne (by omega), List.getElem?_set_ne (by omega), h4 t (by omega)]
  have len4 : loc4.length = loc2.length := by rw [e4]; simp [len3]
  have fr4 : Fr (n + 1) z loc2 loc4 g2 g3 := by
    have := hf3.weaken (n := n + 1) (by omega) (Nat.le_refl _)
    exact ⟨len4, fun t ht => kp4 t (by omega), this.mem, this.size, this.lo, this.hi⟩
  refine From.steps h1 (From.steps (is := [_, _, _, _]) st4 ?_)
  have okA : Ok p wr c w s2 Δ Γ ρ n1 z 3 loc2 g2 :=
    Ok.step (al := A.1.al) (al' := z) (ll' := 3) (by simpa using ok) hf2 hh2 hs2 (by omega) (by omega)
  have ok4 : Ok (p.res (sp g2) z) wr c w s2 Δ Γ ρ n1 0 3 loc4 g3 := by
    refine Ok.hold (al := 0) (al0 := z) okA ?_ (by omega) (by rw [h6, hh2]) hs2 (Nat.le_refl _) (Nat.le_refl _)
    exact ⟨len4, kp4, fr4.mem, fr4.size, fr4.lo, fr4.hi⟩
  have hle : (p.reg g2).Le ((p.res (sp g2) z).reg g3) := by
    refine ⟨hf3.lo, fun i hi h => ?_⟩
    have hi : i < sp g2 := hi
    rcases h with h | h
    · exact h
    · omega
  have sq4 : SeqsAt g3.mem ((p.res (sp g2) z).reg g3) loc4 0 A.2 vs := by
    rw [h5]
    exact hsq.mono (fun _ _ _ => rfl) hle fun x hx => kp4 _ (hssl x hx).2
  obtain ⟨body, hbody⟩ : ∃ body, body = [lget (n1 + 1 + 1), lget n, .b (.i32rel .geU), .brIf 1] ++
      (C.is ++ ((writeMem (n1 + 1) E 0 m).is ++ [lget (n1 + 1), c32 (typeSize E), .b (.i32bin .add), lset (n1 + 1),
        lget (n1 + 1 + 1), c32 1, .b (.i32bin .add), .b (.localTee (n1 + 1 + 1)), .br 0])) := ⟨_, rfl⟩
  have hcode : mapLoop E C.is (writeMem (n1 + 1) E 0 m).is n (n1 + 1) =
      [.block 0 0 [.loop 0 0 body]] := by
    simp only [hbody, mapLoop, List.append_assoc]
  rw [hcode]
  have hrow : RowGood (p.res (sp g2) z) w (d + 2) E A.2 vs n (n1 + 1) loc2.length C.is (fun r s => f.apply (sem p.K.fns k) r c s) := by
    rw [← hCC]
    refine row_fn (p := p.res (sp g2) z) (wr := wr) hC hL hF hb ?_ hT ok.cx (fun x hx => by have := hssl x hx; omega) hnd (by omega)
      (by show n1 + 3 + (fnMap p.K f A.2 E (n1 + 3)).ls.length ≤ _; rw [hCC]; omega)
    show fnTy p.K k wr f _ E
    rw [← hty, List.map_map] at hft
    exact hft
  have hlp := wp_mapLoop (p := p) (k := k) (w := w) (d := d) (er := er) (stk := stk) (loc0 := loc2) (g0 := g2) (mn := n) (q := n1 + 1) (z := z) (m := m)
    (ss := A.2) (vs := vs) (rc := C.is) hrow hvss hrl
    (fun x hx => by have := hssl x hx; omega) (by omega) hlz (by omega) (by omega) hbody (rows vss) [] s2 loc4 g3 (Nat.zero_le _) rfl
    ⟨fr4, by omega, ok4.inv, sq4, fun i x h => by simp at h, by
      rw [e4, List.getElem?_set_ne (by omega), List.getElem?_set_self (by omega)]; simp, by
      rw [e4, List.getElem?_set_self (by simp; omega)]; rfl, by
      show loc4[n1]? = _
      rw [e4, List.getElem?_set_ne (by omega), List.getElem?_set_ne (by omega), h3], by rw [kp4 n (by omega), hmn]⟩
  simp only [List.nil_append] at hlp
  intro hd
  rw [wp_append]
  refine WP.mono (wp_block0.2 (hlp hd)) ?_
  intro r hr
  revert hd hr
  cases mapRows (sem p.K.fns k) f c (rows vss) s2 with
  | ret v s' =>
    rintro - ⟨he, ws3, junk, loc5, g5, rfl, hf5, hh5, hs5, hr5⟩
    exact ⟨he, ws3, junk, loc5, g5, rfl, hf2.trans (hf5.weaken (n := n) (by omega) (Nat.le_refl _)) (Nat.le_refl _), hh5, hs5, hr5⟩
  | fail cd => rintro - ⟨g', rfl, h⟩; exact ⟨g', rfl, h⟩
  | deviates => exact fun h _ => absurd rfl h
  | wrong => exact fun _ h => h.elim
  | val us s' =>
    rintro - ⟨_, loc5, g5, rfl, hf5, hh5, hs5, rfl, c2, us', he, hul, hsp5, hat⟩
    cases he
    rw [List.reverse_nil, List.nil_append, seqK_norm]
    have c1 : loc5[n]? = some (.i32 (BitVec.ofNat 32 (least vs))) := by rw [hf5.keep n (by omega), hmn]
    have c2 : loc5[n1]? = some (.i32 (g2.g32 .stackPointer)) := c2
    have hlen5 := hf5.len
    obtain ⟨b1, q1⟩ := nth_some c1
    obtain ⟨b2, q2⟩ := nth_some c2
    have hsp : (g2.g32 .stackPointer).toNat = sp g2 := rfl
    simp only [lget, c32]
    wpl [q1, q2]
    rw [← BitVec.ofNat_mul]
    have el : (BitVec.ofNat 32 (least vs * typeSize E)).toNat = us.length * typeSize E := by
      rw [toNat_ofNat32 (by omega), hul]
    refine ⟨[.i32 (g2.g32 .stackPointer), .i32 (BitVec.ofNat 32 (least vs * typeSize E))], loc5, g5, rfl,
      hf2.trans (hf5.weaken (n := n) (by omega) (Nat.le_refl _)) (Nat.le_refl _), hh5, hs5, ?_⟩
    have h2 : ElemsAt g5.mem (p.reg g5) E (sp g2) us := hat.mono (fun _ _ _ => rfl) (P.res_le g5) (fun _ _ _ => rfl)
    refine ElemsAt.rep h2 (by omega) el ?_
    rw [el, hul]
    refine ⟨show sp g2 + _ ≤ sp g5 by omega, fun i h3 h4 h5 => ?_⟩
    have := okA.inv.holes i h5
    have h3 : sp g2 ≤ i := h3
    omega
end
end Gen
