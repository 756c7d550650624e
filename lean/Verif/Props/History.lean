import Verif.Proofs.NodeClock
import Verif.Spec.Audit
/-! # C23: the retained history -/

namespace RL
variable {C : Core} {P : MQueue C}

/-- C23.  In every run from start-up under a clock that does not go back (any messages, late data, exhausted history,
`set_pose`, resets, toggling), snapshots and measurements are retained newest first, and no snapshot is newer than the
filter clock. -/
theorem C23_history_sorted (cfg : Cfg C) (ext0 : C.Ext) (fctl0 : C.Ctl) (k : Int) (hk : 0 ≤ k)
    (es : List (Node.Event C)) (hclk : Clocked k es) :
    let n := ((Node.start cfg P ext0 fctl0 k).run cfg es).1
    n.stateHist.Pairwise (fun a b => b.lastTime ≤ a.lastTime) ∧ n.measHist.Pairwise (fun a b => b.time ≤ a.time) ∧
      (∀ s ∈ n.stateHist, s.lastTime ≤ n.filt.lastTime) ∧ n.filt.lastTime ≤ clockAfter k es := by
  have h := HInv.run es (HInv.start cfg P ext0 fctl0 k) hk hclk
  exact ⟨h.ssorted, h.msorted, h.sle, h.clock⟩

/-- C23.  After each cycle of a smoothing node nothing older than the cutoff is retained, and nothing else was dropped
by the expiry: what the cycle retains is exactly the part of the history at or after the cutoff. -/
theorem C23_history_bounded (cfg : Cfg C) (ext0 : C.Ext) (fctl0 : C.Ctl) (k : Int) (hk : 0 ≤ k)
    (es : List (Node.Event C)) (now now2 : Int) (tfOk : Bool) (hclk : Clocked k (es ++ [.tick now now2 tfOk]))
    (hsm : cfg.smooth = true) :
    let n := ((Node.start cfg P ext0 fctl0 k).run cfg es).1
    let n' := (n.periodic cfg now now2 tfOk).1
    let full := n.advance cfg now now2
    n.enabled = true →
    n'.stateHist = full.stateHist.filter (fun s => decide (n'.filt.lastTime - cfg.historyLength ≤ s.lastTime)) ∧
    n'.measHist = full.measHist.filter (fun m => decide (n'.filt.lastTime - cfg.historyLength ≤ m.time)) := by
  intro n n' full he
  have hsplit : ∀ (es : List (Node.Event C)) k, Clocked k (es ++ [.tick now now2 tfOk]) →
      Clocked k es ∧ clockAfter k es ≤ now ∧ now ≤ now2 := by
    intro es
    induction es with
    | nil => intro k h; exact ⟨trivial, h.1, h.2.1⟩
    | cons e es ih => 
      intro k h
      cases e with
      | tick a b c =>
        obtain ⟨h1, h2, h3⟩ := h
        obtain ⟨i1, i2, i3⟩ := ih _ h3
        exact ⟨⟨h1, h2, i1⟩, i2, i3⟩
      | setPose a b c =>
        obtain ⟨h1, h3⟩ := h
        obtain ⟨i1, i2, i3⟩ := ih _ h3
        exact ⟨⟨h1, i1⟩, i2, i3⟩
      | _ => exact ih k h
  obtain ⟨h1, h2, h3⟩ := hsplit es k hclk
  have h := HInv.run es (HInv.start cfg P ext0 fctl0 k) hk h1
  have hfull := (h.mono h2).advance h3
  obtain ⟨p, hp⟩ := Node.periodic_enabled cfg n now now2 tfOk he
  have e : n' = ({ full with lastPub := p }).clearExpired (full.filt.lastTime - cfg.historyLength) := by
    show (n.periodic cfg now now2 tfOk).1 = _
    rw [hp, hsm]; rfl
  have hfilter : ∀ {α : Type} (f : α → Int) (l : List α) (c : Int), Desc f l →
      l.rdropWhile (fun a => decide (f a < c)) = l.filter (fun a => decide (c ≤ f a)) := by
    intro α f l c hd
    rw [hd.rdropWhile_eq]
    induction l with
    | nil => rfl
    | cons a l ih =>
      by_cases hc : c ≤ f a
      · simp [hc, ih hd.tail]
      · have : ∀ b ∈ l, ¬ c ≤ f b := fun b hb => by
          have := hd.le_head b (List.mem_cons_of_mem _ hb); omega
        rw [List.takeWhile_cons_of_neg (by simpa using hc), List.filter_cons_of_neg (by simpa using hc)]
        symm
        rw [List.filter_eq_nil_iff]
        intro b hb
        simpa using this b hb
  rw [e]
  exact ⟨hfilter Snap.lastTime full.stateHist _ hfull.ssorted, hfilter Meas.time full.measHist _ hfull.msorted⟩

/-- Four cycles with a history of 25: after the cycle at 60 only the stamps 40 and 60 are retained. -/
example :
    let cfg := auditCfg true 25 1000
    let es : List (Node.Event Audit) :=
      [.sensor "a" 10 (some (1 : Int)), .tick 11 11 true, .sensor "a" 20 (some (2 : Int)), .tick 21 21 true,
       .sensor "a" 40 (some (3 : Int)), .tick 41 42 true, .sensor "a" 60 (some (4 : Int)), .tick 61 61 true]
    Clocked 0 es ∧ cfg.smooth = true ∧
    ((auditNode cfg).run cfg es).1.measHist.map Meas.time = [60, 40] ∧
    ((auditNode cfg).run cfg es).1.stateHist.map Snap.lastTime = [60, 40] := by
  refine ⟨by simp [Clocked], rfl, rfl, rfl⟩

end RL
