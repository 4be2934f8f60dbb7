import Verif.Gen.ExprProof6
import Verif.Gen.ExprSeq

/-!
Code that reserves memory, evaluates operands and fills the reserved memory in between. What it does not
touch is stated relative to the state before the reservation.
-/

namespace Gen
open Wasm Spec Host Core

section
variable {p : P} {k : Nat} {call : FSem} {wr : Bool} {w : World} {d n al : Nat} {er : Bool}
  {stk bs loc0 loc loc' : List Val} {g0 g : Store World}

/-- As `Does`, relative to the earlier state `loc0`, `g0`. -/
def From {α : Type} (p : P) (w : World) (d : Nat) (er : Bool) (n al : Nat) (is : List Instr)
    (stk bs loc0 : List Val) (g0 : Store World) (loc : List Val) (g : Store World) (o : Out α)
    (Q : α → List Val → List Val → Store World → Prop) : Prop :=
  o ≠ .deviates → WP p.M is stk loc g (Post p w d er n al bs loc0 g0 o Q)

theorem From.does {α : Type} {is : List Instr} {o : Out α} {Q : α → List Val → List Val → Store World → Prop}
    (h : From p w d er n al is stk bs loc g loc g o Q) : Does p w d er n al is stk bs loc g o Q := h

theorem From.steps {α : Type} {is is' : List Instr} {o : Out α} {Q : α → List Val → List Val → Store World → Prop}
    {stk1 loc1 : List Val} {g1 : Store World} (hst : Steps p.M is stk loc g stk1 loc1 g1)
    (h : From p w d er n al is' stk1 bs loc0 g0 loc1 g1 o Q) :
    From p w d er n al (is ++ is') stk bs loc0 g0 loc g o Q := by
  intro hd
  rw [hst]
  exact h hd

theorem From.ends {α : Type} {is : List Instr} {Q : α → List Val → List Val → Store World → Prop} {a : α} {s : St}
    {ws loc1 : List Val} {g1 : Store World} (hst : Steps p.M is stk loc g (ws.reverse ++ bs) loc1 g1)
    (hf : Fr n al loc0 loc1 g0 g1) (hh : g1.host = Gen.put w s) (hs : StOk p.K w.contract s) (hq : Q a ws loc1 g1) :
    From p w d er n al is stk bs loc0 g0 loc g (.val a s) Q := by
  intro _
  rw [hst.wp]
  exact ⟨ws, loc1, g1, rfl, hf, hh, hs, hq⟩

theorem From.cast {α : Type} {is is' : List Instr} {o : Out α} {Q : α → List Val → List Val → Store World → Prop}
    (h : From p w d er n al is stk bs loc0 g0 loc g o Q) (e : is = is') :
    From p w d er n al is' stk bs loc0 g0 loc g o Q := e ▸ h

/-- What holds while memory is reserved, from what held before. -/
theorem Ok.hold {c : Cx} {s0 s : St} {Δ : TEnv} {Γ : Scope} {ρ : Env} {n0 al0 ll0 ll Z : Nat}
    (ok : Ok p wr c w s0 Δ Γ ρ n0 (al0 + al) ll0 loc0 g0) (hf : Fr n0 al0 loc0 loc g0 g) (hz : sp g0 + Z ≤ sp g)
    (hh : g.host = Gen.put w s) (hs : StOk p.K w.contract s) (hn : n0 ≤ n) (hl : n + ll ≤ n0 + ll0) :
    Ok (p.res (sp g0) Z) wr c w s Δ Γ ρ n al ll loc g := by
  have hle : (p.reg g0).Le ((p.res (sp g0) Z).reg g) := by
    refine ⟨hf.lo, fun i hi h => ?_⟩
    have hi : i < sp g0 := hi
    rcases h with h | h
    · exact h
    · omega
  have h0 := ok.step (n' := n) (ll' := ll) hf hh hs hn hl
  refine ⟨ok.cx, ⟨h0.inv.host, h0.inv.st, fun y hy => ?_, fun i hi => ?_, h0.inv.room, h0.inv.small⟩, ?_, h0.locs⟩
  · exact ⟨(ok.inv.lits y hy).1.mono hle, (h0.inv.lits y hy).2⟩
  · rcases hi with hi | hi
    · exact h0.inv.holes i hi
    · omega
  · intro y D hy
    obtain ⟨v, ls, ws, h1, h2, h3, h4, h5⟩ := ok.env y D hy
    refine ⟨v, ls, ws, h1, h2, fun l hl => by have := h3 l hl; omega, ?_, h5.mono hf.same hle⟩
    rw [← h4]
    exact List.map_congr_left fun l hl => hf.keep l (h3 l hl)

/-- The region without the reserved memory is part of the region. -/
theorem P.res_le {a Z : Nat} (g : Store World) : ((p.res a Z).reg g).Le (p.reg g) :=
  ⟨Nat.le_refl _, fun _ _ h => Or.inl h⟩

theorem Rep.unhold {a Z : Nat} {T : Ty} {v : Value} {ws : List Val} (h : Rep g.mem ((p.res a Z).reg g) T v ws) :
    Rep g.mem (p.reg g) T v ws :=
  h.mono (fun _ _ _ => rfl) (P.res_le g)

/-- Evaluate an operand while memory is reserved. -/
theorem EGood.from {β : Type} {e : Expr} {U : Ty} {Δ : TEnv} {Γ : Scope} {ρ : Env} {c : Cx} {s0 s : St}
    {A : Blk} {n0 al0 al' ll0 Z : Nat} {is' : List Instr} {bs2 : List Val} {f : Value → St → Out β}
    {Q2 : β → List Val → List Val → Store World → Prop}
    (he : ∀ H, EGood { p with H := H } k call wr e) (ht : wt p.K k wr p.R e er Δ U)
    (hA : compile p.K p.R e U d Γ n = A)
    (ok : Ok p wr c w s0 Δ Γ ρ n0 al ll0 loc0 g0) (hf : Fr n0 al0 loc0 loc g0 g) (hz : sp g0 + Z ≤ sp g)
    (hh : g.host = Gen.put w s) (hs : StOk p.K w.contract s) (hn : n0 ≤ n) (hl : n + A.ls.length ≤ n0 + ll0)
    (ha : al0 + A.al ≤ al) (ha' : al ≤ al')
    (next : ∀ v s' ws loc' g', eval call e ρ c s = .val v s' → Fr n0 (al0 + A.al) loc0 loc' g0 g' →
      Fr n A.al loc loc' g g' → g'.host = Gen.put w s' → StOk p.K w.contract s' →
      Rep g'.mem ((p.res (sp g0) Z).reg g') U v ws →
      From p w d er n0 al' is' (ws.reverse ++ stk) bs2 loc0 g0 loc' g' (f v s') Q2) :
    From p w d er n0 al' (A.is ++ is') stk bs2 loc0 g0 loc g ((eval call e ρ c s).bind f) Q2 := by
  intro hd
  have ok1 := Ok.hold (ll := A.ls.length) (al := A.al) (ok.weaken (al' := al0 + A.al) ha (Nat.le_refl _)) hf hz hh hs hn hl
  have h0 := he (p.res (sp g0) Z).H U er Δ Γ ρ n w c s d stk loc g ht (by
    show Ok (p.res (sp g0) Z) wr c w s Δ Γ ρ n (compile p.K p.R e U d Γ n).al
      (compile p.K p.R e U d Γ n).ls.length loc g
    rw [hA]; exact ok1)
  have h0 : Does (p.res (sp g0) Z) w d er n (compile p.K p.R e U d Γ n).al
    (compile p.K p.R e U d Γ n).is stk stk loc g (eval call e ρ c s) (IsRep (p.res (sp g0) Z) U) := h0
  rw [hA] at h0
  rw [wp_append]
  have h0 := h0 (bind_ne hd)
  refine WP.mono (show WP p.M A.is stk loc g _ from h0) ?_
  intro r hr
  revert hd hr
  cases ho : eval call e ρ c s with
  | ret v s' =>
    intro _ hr
    obtain ⟨h1, ws, junk, loc2, g2, rfl, hf2, hh2, hs2, hr⟩ := hr
    exact ⟨h1, ws, junk, loc2, g2, rfl, (hf.trans hf2 hn).weaken (Nat.le_refl _) (by omega), hh2, hs2,
      Rep.unhold hr⟩
  | fail c =>
    intro _ hr
    obtain ⟨g', rfl, h⟩ := hr
    exact ⟨g', rfl, h⟩
  | deviates => exact fun h => absurd rfl h
  | wrong => exact fun _ h => h.elim
  | val v s' =>
    intro hd hr
    obtain ⟨ws, loc2, g2, rfl, hf2, hh2, hs2, hr⟩ := hr
    rw [seqK_norm]
    exact next v s' ws loc2 g2 ho (hf.trans hf2 hn) hf2 hh2 hs2 hr hd

/-- Store a value in reserved memory. -/
theorem hold_store {T : Ty} {v : Value} {ws : List Val} {ol m off a0 Z : Nat} {a : BitVec 32}
    (ha : loc[ol]? = some (.i32 a)) (ho : ol < m) (hl : m + (writeMem ol T off m).ls.length ≤ loc.length)
    (hs : a.toNat + off + typeSize T ≤ g.mem.size) (hr : Rep g.mem ((p.res a0 Z).reg g) T v ws)
    (h0 : a0 ≤ a.toNat + off) (h1 : a.toNat + off + typeSize T ≤ a0 + Z) :
    ∃ loc' m', Steps p.M (writeMem ol T off m).is (ws.reverse ++ stk) loc g stk loc' (g.setMem m') ∧
      loc'.length = loc.length ∧ (∀ i, i < m ∨ m + (writeMem ol T off m).ls.length ≤ i → loc'[i]? = loc[i]?) ∧
      m'.size = g.mem.size ∧
      (∀ i, i < a.toNat + off ∨ a.toNat + off + typeSize T ≤ i → m'.byte i = g.mem.byte i) ∧
      Rep m' ((p.res a0 Z).reg g) T v (loadVals m' T (a.toNat + off)) := by
  obtain ⟨loc', m', hst, hld⟩ := stored_writeMem (M := p.M) T off m stk loc g ws ha ho hl hs hr.ty
  refine ⟨loc', m', hst.steps, hst.len, hst.keep, hst.msize, hst.out, ?_⟩
  rw [hld]
  refine hr.clean.mono (fun i h1' h2 => hst.out i ?_) ⟨Nat.le_refl _, fun _ _ h => h⟩
  by_cases h : i < a.toNat + off ∨ a.toNat + off + typeSize T ≤ i
  · exact h
  · exact absurd (Or.inr ⟨by omega, by omega⟩) h2

/-- A representation survives changes of reserved memory. -/
theorem Rep.held {a0 Z : Nat} {T : Ty} {v : Value} {ws : List Val} {m : Mem}
    (h : Rep g.mem ((p.res a0 Z).reg g) T v ws) (hm : ∀ i, i < a0 ∨ a0 + Z ≤ i → m.byte i = g.mem.byte i) :
    Rep m ((p.res a0 Z).reg g) T v ws := by
  refine h.mono (fun i _ h2 => hm i ?_) ⟨Nat.le_refl _, fun _ _ h => h⟩
  by_cases h : i < a0 ∨ a0 + Z ≤ i
  · exact h
  · exact absurd (Or.inr ⟨by omega, by omega⟩) h2

/-- `memory.copy`. -/
theorem steps_copy {M : Wasm.Mod World} {l s t : BitVec 32} (h1 : s.toNat + l.toNat ≤ g.mem.size)
    (h2 : t.toNat + l.toNat ≤ g.mem.size) :
    Steps M [.b .memCopy] (.i32 l :: .i32 s :: .i32 t :: stk) loc g stk loc
      (g.setMem (g.mem.copy t.toNat s.toNat l.toNat)) := by
  refine Steps.b ?_
  simp only [stepB]
  rw [if_pos ⟨h1, h2⟩]

end
end Gen
