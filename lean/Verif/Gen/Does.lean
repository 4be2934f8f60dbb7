import Verif.Gen.Typing
import Verif.Gen.Rep
import Verif.Gen.Steps

/-!
What it means that emitted code implements an evaluation, and how such facts compose.
-/

namespace Gen
open Wasm Spec Host Core

/-- The state of the contract inside the host state. -/
def put (w : World) (s : St) : World := { w with cur := { w.cur with db := s.db, events := s.events } }

/-- The stack pointer. -/
def sp (g : Store World) : Nat := (g.g32 .stackPointer).toNat

/-- The declared variables and maps exist and contain values of their types. -/
structure StOk (K : Ctx) (me : ContractId) (s : St) : Prop where
  vars : ∀ x T, K.vars x = some T → ∃ d, s.db.var me x = some d ∧ d.ty = T ∧ HasType T d.val
  maps : ∀ x D V, K.maps x = some (D, V) → ∃ d, s.db.map me x = some d ∧ d.key = D ∧ d.val = V ∧
    ∀ k v, d.entry k = some v → HasType V v
  fts : ∀ x, K.fts x = true → ∃ t, s.db.ft me x = some t ∧ t.supply < 2 ^ 128 ∧ ∀ p, t.bal p < 2 ^ 128

/-- The execution context is that of the host; reads see the current state; writes are allowed if
`wr`. -/
structure CxOk (c : Cx) (w : World) (wr : Bool) : Prop where
  self : w.contract = c.self
  sender : w.sender = some c.sender
  caller : w.caller = some c.caller
  senderOk : c.sender.Ok
  callerOk : c.caller.Ok
  selfOk : c.self.Ok
  pending : w.pending = true
  writable : wr = true → w.cur.readOnly = false

/-- The data segment holds the literals, in the region `b`. -/
def LitOk (K : Ctx) (m : Mem) (b : Reg) : Prop :=
  ∀ bs ∈ K.lits, b.Has (K.off bs) bs.length ∧ bytesAt m (K.off bs) bs.length = bs

/-- The variables in scope are in locals below `n`. -/
def EnvRep (m : Mem) (b : Reg) (Δ : TEnv) (Γ : Scope) (ρ : Env) (loc : List Val) (n : Nat) : Prop :=
  ∀ x D, look x Δ = some D → ∃ v ls ws, ρ.get x = some v ∧ look x Γ = some ls ∧ (∀ l ∈ ls, l < n) ∧
    ls.map (loc[·]?) = ws.map some ∧ Rep m b D v ws

/-- What code does not touch: locals below `n`, memory below the old stack pointer; the stack pointer
grows by at most `al`. -/
structure Fr (n al : Nat) (loc loc' : List Val) (g g' : Store World) : Prop where
  len : loc'.length = loc.length
  keep : ∀ i, i < n → loc'[i]? = loc[i]?
  mem : Below (sp g) g.mem g'.mem
  size : g'.mem.size = g.mem.size
  lo : sp g ≤ sp g'
  hi : sp g' ≤ sp g + al

theorem Fr.refl {n : Nat} {loc : List Val} {g : Store World} : Fr n 0 loc loc g g :=
  ⟨rfl, fun _ _ => rfl, fun _ _ => rfl, rfl, Nat.le_refl _, Nat.le_refl _⟩

theorem Fr.trans {n n' al al' : Nat} {loc loc1 loc2 : List Val} {g g1 g2 : Store World}
    (h : Fr n al loc loc1 g g1) (h' : Fr n' al' loc1 loc2 g1 g2) (hn : n ≤ n') :
    Fr n (al + al') loc loc2 g g2 where
  len := by rw [h'.len, h.len]
  keep i hi := by rw [h'.keep i (by omega), h.keep i hi]
  mem i hi := by rw [h'.mem i (by have := h.lo; omega), h.mem i hi]
  size := by rw [h'.size, h.size]
  lo := by have := h.lo; have := h'.lo; omega
  hi := by have := h.hi; have := h'.hi; omega

theorem Fr.weaken {n n' al al' : Nat} {loc loc1 : List Val} {g g1 : Store World}
    (h : Fr n' al loc loc1 g g1) (hn : n ≤ n') (ha : al ≤ al') : Fr n al' loc loc1 g g1 where
  len := h.len
  keep i hi := h.keep i (by omega)
  mem := h.mem
  size := h.size
  lo := h.lo
  hi := by have := h.hi; omega

/-- Static parameters of the proof: the contract, the module, the number of bytes of stack that the
functions before this one need, the function's return type, and the part of the stack that is reserved
for values that are still to be stored. -/
structure P where
  K : Ctx
  M : Wasm.Mod World
  base : Nat
  R : Ty
  H : Nat → Prop

/-- The memory that values may be in. -/
def P.reg (p : P) (g : Store World) : Reg := ⟨sp g, p.H⟩

/-- What holds when code that takes at most `al` bytes of stack starts. -/
structure Inv (p : P) (w : World) (s : St) (al : Nat) (g : Store World) : Prop where
  host : g.host = put w s
  st : StOk p.K w.contract s
  lits : LitOk p.K g.mem (p.reg g)
  holes : ∀ i, p.H i → i < sp g
  room : sp g + al + p.base ≤ g.mem.size
  /-- memories are whole pages, and this one is not the largest -/
  small : g.mem.size + 65536 ≤ 2 ^ 32

theorem Inv.step {p : P} {w : World} {s s' : St} {n al al' : Nat} {loc loc' : List Val} {g g' : Store World}
    (h : Inv p w s (al + al') g) (hf : Fr n al loc loc' g g') (hh : g'.host = put w s')
    (hs : StOk p.K w.contract s') : Inv p w s' al' g' where
  host := hh
  st := hs
  lits bs hb := by
    have := h.lits bs hb
    have hlo := hf.lo
    refine ⟨this.1.mono ⟨hlo, fun _ _ h => h⟩, ?_⟩
    rw [bytesAt_eq (m := g.mem) fun i h1 h2 => hf.mem i (Nat.lt_of_lt_of_le h2 this.1.1), this.2]
  holes i hi := by have := h.holes i hi; have := hf.lo; omega
  room := by have := h.room; have := hf.hi; rw [hf.size]; omega
  small := by rw [hf.size]; exact h.small

theorem Fr.le {p : P} {n al : Nat} {loc loc' : List Val} {g g' : Store World}
    (hf : Fr n al loc loc' g g') : (p.reg g).Le (p.reg g') := ⟨hf.lo, fun _ _ h => h⟩

theorem Fr.same {p : P} {n al : Nat} {loc loc' : List Val} {g g' : Store World}
    (hf : Fr n al loc loc' g g') : Same (p.reg g) g.mem g'.mem := Below.same hf.mem

theorem EnvRep.step {p : P} {Δ : TEnv} {Γ : Scope} {ρ : Env} {n n' al : Nat} {loc loc' : List Val}
    {g g' : Store World} (h : EnvRep g.mem (p.reg g) Δ Γ ρ loc n) (hf : Fr n al loc loc' g g')
    (hn : n ≤ n') : EnvRep g'.mem (p.reg g') Δ Γ ρ loc' n' := by
  intro x D hx
  obtain ⟨v, ls, ws, h1, h2, h3, h4, h5⟩ := h x D hx
  refine ⟨v, ls, ws, h1, h2, fun l hl => by have := h3 l hl; omega, ?_, h5.mono hf.same hf.le⟩
  rw [← h4]
  exact List.map_congr_left fun l hl => hf.keep l (h3 l hl)

theorem EnvRep.cons {m : Mem} {b : Reg} {Δ : TEnv} {Γ : Scope} {ρ : Env} {n : Nat} {loc : List Val}
    {x : Name} {T : Ty} {v : Value} {ls : List Nat} {ws : List Val} (h : EnvRep m b Δ Γ ρ loc n)
    (hl : ∀ l ∈ ls, l < n) (hw : ls.map (loc[·]?) = ws.map some) (hr : Rep m b T v ws) :
    EnvRep m b ((x, T) :: Δ) ((x, ls) :: Γ) ((x, v) :: ρ) loc n := by
  intro y D hy
  simp only [look] at hy ⊢
  simp only [Env.get]
  by_cases e : x = y
  · rw [if_pos e] at hy
    rw [if_pos e, if_pos e]
    cases hy
    exact ⟨v, ls, ws, rfl, rfl, hl, hw, hr⟩
  · rw [if_neg e] at hy
    rw [if_neg e, if_neg e]
    exact h y D hy

/-- Everything that holds when the code of an expression starts: it requests at most `ll` locals and
`al` bytes of stack. -/
structure Ok (p : P) (wr : Bool) (c : Cx) (w : World) (s : St) (Δ : TEnv) (Γ : Scope) (ρ : Env)
    (n al ll : Nat) (loc : List Val) (g : Store World) : Prop where
  cx : CxOk c w wr
  inv : Inv p w s al g
  env : EnvRep g.mem (p.reg g) Δ Γ ρ loc n
  locs : n + ll ≤ loc.length

theorem Ok.step {p : P} {wr : Bool} {c : Cx} {w : World} {s s' : St} {Δ : TEnv} {Γ : Scope} {ρ : Env}
    {n n' al al' ll ll' : Nat} {loc loc' : List Val} {g g' : Store World}
    (h : Ok p wr c w s Δ Γ ρ n (al + al') ll loc g) (hf : Fr n al loc loc' g g')
    (hh : g'.host = put w s') (hs : StOk p.K w.contract s') (hn : n ≤ n') (hl : n' + ll' ≤ n + ll) :
    Ok p wr c w s' Δ Γ ρ n' al' ll' loc' g' :=
  ⟨h.cx, h.inv.step hf hh hs, h.env.step hf hn, by have := h.locs; rw [hf.len]; omega⟩

theorem Ok.weaken {p : P} {wr : Bool} {c : Cx} {w : World} {s : St} {Δ : TEnv} {Γ : Scope} {ρ : Env}
    {n al al' ll ll' : Nat} {loc : List Val} {g : Store World}
    (h : Ok p wr c w s Δ Γ ρ n al ll loc g) (ha : al' ≤ al) (hl : ll' ≤ ll) :
    Ok p wr c w s Δ Γ ρ n al' ll' loc g :=
  ⟨h.cx, ⟨h.inv.host, h.inv.st, h.inv.lits, h.inv.holes, by have := h.inv.room; omega, h.inv.small⟩, h.env,
    by have := h.locs; omega⟩

/-- The results code may have for an evaluation with outcome `o`. -/
def Post {α : Type} (p : P) (w : World) (d : Nat) (er : Bool) (n al : Nat) (bs loc : List Val)
    (g : Store World) (o : Out α) (Q : α → List Val → List Val → Store World → Prop) :
    Res World → Prop := fun r =>
  match o with
  | .val a s' => ∃ ws loc' g', r = .norm (ws.reverse ++ bs) loc' g' ∧ Fr n al loc loc' g g' ∧
      g'.host = put w s' ∧ StOk p.K w.contract s' ∧ Q a ws loc' g'
  | .ret v s' => er = true ∧ ∃ ws junk loc' g', r = .br d (ws.reverse ++ junk) loc' g' ∧
      Fr n al loc loc' g g' ∧ g'.host = put w s' ∧ StOk p.K w.contract s' ∧
      Rep g'.mem (p.reg g') p.R v ws
  | .fail c => ∃ g', r = .trap g' ∧ g'.g32 .errCode = BitVec.ofNat 32 c
  | .deviates => True
  | .wrong => False

/-- The code `is`, started on the stack `stk`, implements the evaluation: on success it leaves `ws`
on top of `bs`, with `Q a ws loc' g'`. Nothing is claimed about the operand combinations for which
the library deviates. -/
def Does {α : Type} (p : P) (w : World) (d : Nat) (er : Bool) (n al : Nat) (is : List Instr)
    (stk bs loc : List Val) (g : Store World) (o : Out α)
    (Q : α → List Val → List Val → Store World → Prop) : Prop :=
  o ≠ .deviates → WP p.M is stk loc g (Post p w d er n al bs loc g o Q)

variable {α β : Type} {p : P} {w : World} {d : Nat} {er : Bool} {n n' al al' : Nat}
  {is is' : List Instr} {stk bs loc : List Val} {g : Store World} {o : Out α}
  {Q Q' : α → List Val → List Val → Store World → Prop}

theorem bind_ne {k : α → St → Out β} (h : o.bind k ≠ .deviates) : o ≠ .deviates := by
  rintro rfl; exact h rfl

/-- Sequential composition. -/
theorem Does.bind {k : α → St → Out β} {Q2 : β → List Val → List Val → Store World → Prop} {bs2 : List Val}
    (h1 : Does p w d er n al is stk bs loc g o Q) (hn : n ≤ n')
    (h2 : ∀ a s' ws loc' g', o = .val a s' → Fr n al loc loc' g g' → g'.host = put w s' →
      StOk p.K w.contract s' → Q a ws loc' g' →
      Does p w d er n' al' is' (ws.reverse ++ bs) bs2 loc' g' (k a s') Q2) :
    Does p w d er n (al + al') (is ++ is') stk bs2 loc g (o.bind k) Q2 := by
  intro hd
  rw [wp_append]
  refine (h1 (bind_ne hd)).mono ?_
  intro r hr
  cases o with
  | val a s' =>
    obtain ⟨ws, loc', g', rfl, hf, hh, hs, hq⟩ := hr
    have hd' : k a s' ≠ .deviates := hd
    rw [seqK_norm]
    refine (h2 a s' ws loc' g' rfl hf hh hs hq hd').mono ?_
    intro r hr
    show Post p w d er n (al + al') bs2 loc g (k a s') Q2 r
    revert hr hd'
    cases k a s' with
    | val b s2 =>
      rintro _ ⟨ws2, loc2, g2, rfl, hf2, hh2, hs2, hq2⟩
      exact ⟨ws2, loc2, g2, rfl, hf.trans hf2 hn, hh2, hs2, hq2⟩
    | ret v s2 =>
      rintro _ ⟨he, ws2, junk, loc2, g2, rfl, hf2, hh2, hs2, hq2⟩
      exact ⟨he, ws2, junk, loc2, g2, rfl, hf.trans hf2 hn, hh2, hs2, hq2⟩
    | fail c => exact fun _ h => h
    | deviates => exact fun h => absurd rfl h
    | wrong => exact fun _ h => h
  | ret v s' =>
    obtain ⟨he, ws2, junk, loc2, g2, rfl, hf2, hh2, hs2, hq2⟩ := hr
    exact ⟨he, ws2, junk, loc2, g2, rfl, hf2.weaken (Nat.le_refl _) (by omega), hh2, hs2, hq2⟩
  | fail c =>
    obtain ⟨g', rfl, h⟩ := hr
    exact ⟨g', rfl, h⟩
  | deviates => exact absurd rfl hd
  | wrong => exact hr.elim

/-- Weakening. -/
theorem Does.mono (h : Does p w d er n al is stk bs loc g o Q) (ha : al ≤ al')
    (hq : ∀ a s' ws loc' g', o = .val a s' → Fr n al loc loc' g g' → Q a ws loc' g' → Q' a ws loc' g') :
    Does p w d er n al' is stk bs loc g o Q' := by
  intro hd
  refine (h hd).mono ?_
  intro r hr
  cases o with
  | val a s' =>
    obtain ⟨ws, loc', g', rfl, hf, hh, hs, hq'⟩ := hr
    exact ⟨ws, loc', g', rfl, hf.weaken (Nat.le_refl _) ha, hh, hs, hq _ _ _ _ _ rfl hf hq'⟩
  | ret v s' =>
    obtain ⟨he, ws2, junk, loc2, g2, rfl, hf2, hh2, hs2, hq2⟩ := hr
    exact ⟨he, ws2, junk, loc2, g2, rfl, hf2.weaken (Nat.le_refl _) ha, hh2, hs2, hq2⟩
  | fail c => exact hr
  | deviates => exact hr
  | wrong => exact hr

/-- Straight-line code before. -/
theorem Does.steps {stk1 loc1 : List Val} {g1 : Store World}
    (hst : Steps p.M is stk loc g stk1 loc1 g1) (hf : Fr n al loc loc1 g g1) (hn : n ≤ n')
    (h : Does p w d er n' al' is' stk1 bs loc1 g1 o Q) :
    Does p w d er n (al + al') (is ++ is') stk bs loc g o Q := by
  intro hd
  rw [hst]
  refine (h hd).mono ?_
  intro r hr
  cases o with
  | val a s' =>
    obtain ⟨ws, loc', g', rfl, hf', hh, hs, hq'⟩ := hr
    exact ⟨ws, loc', g', rfl, hf.trans hf' hn, hh, hs, hq'⟩
  | ret v s' =>
    obtain ⟨he, ws2, junk, loc2, g2, rfl, hf2, hh2, hs2, hq2⟩ := hr
    exact ⟨he, ws2, junk, loc2, g2, rfl, hf.trans hf2 hn, hh2, hs2, hq2⟩
  | fail c => exact hr
  | deviates => exact hr
  | wrong => exact hr

/-- The end: nothing left to do. -/
theorem Does.done {a : α} {s : St} {ws : List Val} (hb : stk = ws.reverse ++ bs)
    (hh : g.host = put w s) (hs : StOk p.K w.contract s) (hq : Q a ws loc g) :
    Does p w d er n 0 [] stk bs loc g (.val a s) Q := by
  intro _
  rw [wp_nil]
  exact ⟨ws, loc, g, by rw [hb], Fr.refl, hh, hs, hq⟩

/-- Straight-line code that ends the evaluation. -/
theorem Does.ends {a : α} {s : St} {ws loc1 : List Val} {g1 : Store World}
    (hst : Steps p.M is stk loc g (ws.reverse ++ bs) loc1 g1) (hf : Fr n al loc loc1 g g1)
    (hh : g1.host = put w s) (hs : StOk p.K w.contract s) (hq : Q a ws loc1 g1) :
    Does p w d er n al is stk bs loc g (.val a s) Q := by
  intro _
  rw [hst.wp]
  exact ⟨ws, loc1, g1, rfl, hf, hh, hs, hq⟩

/-- A block: the body runs on the empty stack, one level deeper. -/
theorem Does.block {nr : Nat} (h : Does p w (d + 1) er n al is [] [] loc g o Q) :
    Does p w d er n al [.block 0 nr is] bs bs loc g o Q := by
  intro hd
  rw [wp_block0]
  refine (h hd).mono ?_
  intro r hr
  cases o with
  | val a s' =>
    obtain ⟨ws, loc', g', rfl, hf', hh, hs, hq'⟩ := hr
    rw [blockK_norm, wp_nil]
    exact ⟨ws, loc', g', by simp, hf', hh, hs, hq'⟩
  | ret v s' =>
    obtain ⟨he, ws2, junk, loc2, g2, rfl, hf2, hh2, hs2, hq2⟩ := hr
    exact ⟨he, ws2, junk, loc2, g2, rfl, hf2, hh2, hs2, hq2⟩
  | fail c =>
    obtain ⟨g', rfl, h⟩ := hr
    exact ⟨g', rfl, h⟩
  | deviates => exact absurd rfl hd
  | wrong => exact hr.elim

/-- Two-armed conditional. -/
theorem Does.ite {nr : Nat} {c : BitVec 32} {A B : List Instr}
    (h : Does p w (d + 1) er n al (if c = 0#32 then B else A) [] [] loc g o Q) :
    Does p w d er n al [.ite 0 nr A B] (.i32 c :: bs) bs loc g o Q := by
  intro hd
  rw [wp_ite]
  exact Does.block h hd

end Gen
