import Verif.Proof.SmoothB
import Verif.Spec.Loops
/-
The parallel loops of the filters do not depend on the schedule.
-/
namespace TinyMesh
open Orbit

section
variable {F : Type} [Scalar F] {m : Mesh F}

/-- sequential execution of parallel loops -/
def serials : List (Nat × (Nat → Prog Loc F Unit)) → (Loc → F) → Except Err (Loc → F)
  | [], s => .ok s
  | (n, body) :: ls, s =>
    match serial body (List.range n) s with
    | .ok t => serials ls t
    | .error e => .error e

/-- every loop is free of races, whatever the memory -/
def AllFree : List (Nat × (Nat → Prog Loc F Unit)) → Prop
  | [] => True
  | (n, body) :: ls => (∃ R W, RaceFree n body R W) ∧ AllFree ls

theorem AllFree.deterministic : ∀ {ls : List (Nat × (Nat → Prog Loc F Unit))}, AllFree ls → ∀ s, LoopsDeterministic ls s
  | [], _, _ => trivial
  | (n, body) :: ls, ⟨⟨R, W, r⟩, h⟩, s => ⟨r.deterministic s, fun t _ => AllFree.deterministic h t⟩

theorem AllFree.ends_iff : ∀ {ls : List (Nat × (Nat → Prog Loc F Unit))}, AllFree ls → ∀ s s',
    LoopsEnd ls s s' ↔ serials ls s = .ok s'
  | [], _, s, s' => by simp only [LoopsEnd, serials, Except.ok.injEq]; exact eq_comm
  | (n, body) :: ls, ⟨⟨R, W, r⟩, h⟩, s, s' => by
    simp only [LoopsEnd, serials, (r.deterministic s).ends_iff]
    constructor
    · rintro ⟨t, h1, h2⟩
      rw [h1]
      exact (h.ends_iff t s').1 h2
    · intro h1
      cases h2 : serial body (List.range n) s with
      | ok t => rw [h2] at h1; exact ⟨t, rfl, (h.ends_iff t s').2 h1⟩
      | error e => rw [h2] at h1; cases h1

theorem lapLoops_free (w : m.WF) (eps : F) (cotan : Bool) : AllFree (lapLoops eps cotan m) :=
  ⟨⟨_, _, cent_raceFree fun i => lapCent_within m cotan i⟩, ⟨_, _, move_raceFree w.vDense.nodup fun i => lapMove_within m _ eps i⟩,
    trivial⟩

theorem tauLoops_free (w : m.WF) (eps : F) : AllFree (tauLoops eps m) :=
  ⟨⟨_, _, cent_raceFree fun i => tauCent_within m i⟩, ⟨_, _, move_raceFree w.vDense.nodup fun i => tauMove_within m _ eps i⟩,
    trivial⟩

theorem sweep_serials (b1 b2 : Mesh F → Nat → Nat → Prog Loc F Unit) : sweep b1 b2 m =
    match serials [(m.vs.length, b1 m m.vs.length), (m.vs.length, b2 m m.vs.length)] m.mem with
    | .ok s => .ok () (m.store s)
    | .error e => .err e := by
  unfold sweep
  simp only [serials]
  cases serial (b1 m m.vs.length) (List.range m.vs.length) m.mem with
  | error e => rfl
  | ok s =>
    dsimp only
    cases serial (b2 m m.vs.length) (List.range m.vs.length) s <;> rfl

theorem parRun_iff {ls : Mesh F → List (Nat × (Nat → Prog Loc F Unit))} (h : AllFree (ls m)) {x : M F Unit}
    (hx : x m = match serials (ls m) m.mem with
      | .ok s => .ok () (m.store s)
      | .error e => .err e) (m' : Mesh F) : ParRun ls m m' ↔ x m = .ok () m' := by
  unfold ParRun
  constructor
  · rintro ⟨s, h1, rfl⟩
    rw [h.ends_iff] at h1
    rw [hx, h1]
  · intro h1
    cases h2 : serials (ls m) m.mem with
    | error e => rw [hx, h2] at h1; cases h1
    | ok s =>
      rw [hx, h2] at h1
      injection h1 with _ h1
      exact ⟨s, (h.ends_iff _ _).2 h2, h1.symm⟩

theorem parLap_iff (w : m.WF) (eps : F) (cotan : Bool) (m' : Mesh F) :
    ParRun (lapLoops eps cotan) m m' ↔ lapSweep eps cotan m = .ok () m' :=
  parRun_iff (lapLoops_free w eps cotan) (sweep_serials _ _) m'

theorem parTau_iff (w : m.WF) (eps : F) (m' : Mesh F) : ParRun (tauLoops eps) m m' ↔ tauSweep eps m = .ok () m' :=
  parRun_iff (tauLoops_free w eps) (sweep_serials _ _) m'

/-- consistency survives loops that store positions only -/
theorem ParRun.wf {ls : Mesh F → List (Nat × (Nat → Prog Loc F Unit))} {m' : Mesh F} (h : ParRun ls m m') (w : m.WF) : m'.WF := by
  obtain ⟨s, -, rfl⟩ := h
  exact w.setPos _

theorem bindUnit_ok {x y : M F Unit} {m m' : Mesh F} : (x >>= fun _ => y) m = .ok () m' ↔ ∃ m1, x m = .ok () m1 ∧ y m1 = .ok () m' := by
  rw [bind_apply]
  cases x m with
  | ok a m1 => cases a; simp
  | err e => simp

theorem parRuns_cons {ls : Mesh F → List (Nat × (Nat → Prog Loc F Unit))} {rest : List (Mesh F → List (Nat × (Nat → Prog Loc F Unit)))}
    {m' : Mesh F} : ParRuns (ls :: rest) m m' ↔ ∃ m1, ParRun ls m m1 ∧ ParRuns rest m1 m' := by
  constructor
  · intro h; cases h with | cons h1 h2 => exact ⟨_, h1, h2⟩
  · rintro ⟨m1, h1, h2⟩; exact .cons h1 h2

theorem parRuns_nil {m' : Mesh F} : ParRuns [] m m' ↔ m' = m := by
  constructor
  · intro h; cases h; rfl
  · rintro rfl; exact .nil _


theorem parLaps_iff (eps : F) (cotan : Bool) (m' : Mesh F) : ∀ (n : Nat) {m : Mesh F}, m.WF →
    (ParRuns (lapRuns eps cotan n) m m' ↔ smoothLaplacian eps cotan n m = .ok () m')
  | 0, m, _ => by
    rw [lapRuns, List.replicate_zero, parRuns_nil, smoothLaplacian, pure_apply]
    simp [eq_comm]
  | n + 1, m, w => by
    rw [lapRuns, List.replicate_succ, parRuns_cons, smoothLaplacian, bindUnit_ok]
    constructor
    · rintro ⟨m1, h1, h2⟩
      exact ⟨m1, (parLap_iff w eps cotan m1).1 h1, (parLaps_iff eps cotan m' n (h1.wf w)).1 h2⟩
    · rintro ⟨m1, h1, h2⟩
      have h1 := (parLap_iff w eps cotan m1).2 h1
      exact ⟨m1, h1, (parLaps_iff eps cotan m' n (h1.wf w)).2 h2⟩

theorem parTaus_iff (shrink inflate : F) (m' : Mesh F) : ∀ (n it : Nat) {m : Mesh F}, m.WF →
    (ParRuns (tauRuns shrink inflate it n) m m' ↔ tauLoop shrink inflate it n m = .ok () m')
  | 0, it, m, _ => by
    rw [tauRuns, parRuns_nil, tauLoop, pure_apply]
    simp [eq_comm]
  | n + 1, it, m, w => by
    rw [tauRuns, parRuns_cons, tauLoop, bindUnit_ok]
    constructor
    · rintro ⟨m1, h1, h2⟩
      exact ⟨m1, (parTau_iff w _ m1).1 h1, (parTaus_iff shrink inflate m' n _ (h1.wf w)).1 h2⟩
    · rintro ⟨m1, h1, h2⟩
      have h1 := (parTau_iff w _ m1).2 h1
      exact ⟨m1, h1, (parTaus_iff shrink inflate m' n _ (h1.wf w)).2 h2⟩

end

/-! ### Denoising -/

section
variable {F : Type} [ScalarX F] (m : Mesh F)

theorem dnNormal_within (i : Nat) : (dnNormal m i).Within IsPos (fun l => ArrAt 0 i l ∨ ArrAt 1 i l ∨ ArrAt 2 i l) := by
  unfold dnNormal
  refine Prog.Within.bind .topo fun f => Prog.Within.bind .topo fun vs => Prog.Within.bind (loadAll_within m (fun _ h => h) vs)
    fun ps => ?_
  split
  · exact Prog.Within.bind .orThrow fun n => Prog.Within.bind (.storeArr fun _ => Or.inl ⟨rfl, rfl⟩) fun _ =>
      Prog.Within.bind .orThrow fun g => Prog.Within.bind (.storeArr fun _ => Or.inr (Or.inl ⟨rfl, rfl⟩)) fun _ =>
        .storeNum fun _ => Or.inr (Or.inr ⟨rfl, rfl⟩)
  · trivial

theorem dnSum_within (nf : Nat) (bil : Bool) (sg sn : F) (i : Nat) {W : Loc → Prop} : ∀ (gs : List Nat) (s : Vec3 F),
    (dnSum m nf bil sg sn i gs s).Within (fun l => InArr 0 l ∨ InArr 1 l ∨ InArr 2 l) W
  | [], _ => trivial
  | g :: gs, s => by
    unfold dnSum
    refine Prog.Within.bind .topo fun j => Prog.Within.bind (.loadArr fun _ => Or.inr (Or.inl rfl)) fun ci =>
      Prog.Within.bind (.loadArr fun _ => Or.inr (Or.inl rfl)) fun cj => Prog.Within.bind (.loadNum fun _ => Or.inr (Or.inr rfl))
        fun a => Prog.Within.bind (.loadArr fun _ => Or.inl rfl) fun nj => ?_
    dsimp only
    split
    · exact Prog.Within.bind (.loadArr fun _ => Or.inl rfl) fun ni => dnSum_within nf bil sg sn i gs _
    · exact dnSum_within nf bil sg sn i gs _

theorem dnFilter_within (nf : Nat) (bil : Bool) (sg sn : F) (i : Nat) :
    (dnFilter m nf bil sg sn i).Within (fun l => InArr 0 l ∨ InArr 1 l ∨ InArr 2 l) (ArrAt 3 i) := by
  unfold dnFilter
  refine Prog.Within.bind .topo fun f => Prog.Within.bind .topo fun gs => Prog.Within.bind (dnSum_within m nf bil sg sn i gs _)
    fun s => ?_
  dsimp only
  split
  · trivial
  · exact Prog.Within.bind .orThrow fun n => .storeArr fun _ => ⟨rfl, rfl⟩

theorem dnIncr_within (nf v : Nat) {i : Nat} (hv : m.vs[i]? = some v) {W : Loc → Prop} : ∀ (gs : List Nat) (s : F) (c : Vec3 F),
    (dnIncr m nf v gs s c).Within (fun l => PosAt m i l ∨ InArr 1 l ∨ InArr 2 l ∨ InArr 3 l) W
  | [], _, _ => trivial
  | g :: gs, s, c => by
    unfold dnIncr
    exact Prog.Within.bind .topo fun j => Prog.Within.bind (.loadNum fun _ => Or.inr (Or.inr (Or.inl rfl))) fun a =>
      Prog.Within.bind (.loadArr fun _ => Or.inr (Or.inr (Or.inr rfl))) fun n =>
        Prog.Within.bind (.loadArr fun _ => Or.inr (Or.inl rfl)) fun cj => Prog.Within.bind (.loadPos fun _ => Or.inl hv)
          fun p => dnIncr_within nf v hv gs _ _

theorem dnMove_within (nf : Nat) (i : Nat) :
    (dnMove m nf i).Within (fun l => PosAt m i l ∨ InArr 1 l ∨ InArr 2 l ∨ InArr 3 l) (PosAt m i) := by
  unfold dnMove
  refine Prog.Within.topo_bind fun v m' hv => ?_
  have hv := vertexAt_eq hv
  refine Prog.Within.bind .topo fun gs => Prog.Within.bind (dnIncr_within m nf v hv gs _ _) ?_
  rintro ⟨s, c⟩
  exact Prog.Within.bind .orThrow fun c => Prog.Within.bind (.loadPos fun _ => Or.inl hv) fun p => .storePos fun _ => hv

variable {m}

theorem dnNormal_free (n : Nat) : RaceFree n (dnNormal m) (fun _ => IsPos) (fun i l => ArrAt 0 i l ∨ ArrAt 1 i l ∨ ArrAt 2 i l) := by
  refine ⟨fun i _ => dnNormal_within m i, ?_⟩
  intro i _ j _ hij l hw
  cases l with
  | pos v c => simp [ArrAt] at hw
  | arr b k c =>
    simp only [IsPos, ArrAt, false_or] at hw ⊢
    rintro h
    have h1 : k = i := by rcases hw with h | h | h <;> exact h.2
    have h2 : k = j := by rcases h with h | h | h <;> exact h.2
    exact hij (h1.symm.trans h2)

theorem dnFilter_free (n nf : Nat) (bil : Bool) (sg sn : F) : RaceFree n (dnFilter m nf bil sg sn)
    (fun _ l => InArr 0 l ∨ InArr 1 l ∨ InArr 2 l) (fun i => ArrAt 3 i) := by
  refine ⟨fun i _ => dnFilter_within m _ bil sg sn i, ?_⟩
  intro i _ j _ hij l hw
  cases l with
  | pos v c => exact absurd hw id
  | arr b k c =>
    obtain ⟨rfl, rfl⟩ := hw
    simp [InArr, ArrAt, hij]

theorem dnMove_free (w : m.WF) (n nf : Nat) : RaceFree n (dnMove m nf)
    (fun i l => PosAt m i l ∨ InArr 1 l ∨ InArr 2 l ∨ InArr 3 l) (fun i => PosAt m i) := by
  refine ⟨fun i _ => dnMove_within m _ i, ?_⟩
  intro i _ j _ hij l hw
  have := pos_apart w.vDense.nodup hij l hw
  cases l with
  | arr b k c => exact absurd hw id
  | pos v c =>
    rintro ((h | h | h | h) | h)
    · exact this h
    · exact h
    · exact h
    · exact h
    · exact this h

theorem dnLoops_free (w : m.WF) (bil : Bool) (sg sn : F) : AllFree (dnLoops bil sg sn m) :=
  ⟨⟨_, _, dnNormal_free _⟩, ⟨_, _, dnFilter_free _ _ bil sg sn⟩, ⟨_, _, dnMove_free w _ _⟩, trivial⟩

theorem parDn_iff (w : m.WF) (bil : Bool) (sg sn : F) (m' : Mesh F) :
    ParRun (dnLoops bil sg sn) m m' ↔ dnSweep bil sg sn m = .ok () m' := by
  refine parRun_iff (dnLoops_free w bil sg sn) ?_ m'
  unfold dnSweep dnLoops
  simp only [serials]
  cases serial (dnNormal m) (List.range m.fs.length) m.mem with
  | error e => rfl
  | ok s =>
    dsimp only
    cases serial (dnFilter m m.fs.length bil sg sn) (List.range m.fs.length) s with
    | error e => rfl
    | ok s =>
      dsimp only
      cases serial (dnMove m m.fs.length) (List.range m.vs.length) s <;> rfl

theorem parRuns_append {m' : Mesh F} {r2 : List (Mesh F → List (Nat × (Nat → Prog Loc F Unit)))} : ∀
    {r1 : List (Mesh F → List (Nat × (Nat → Prog Loc F Unit)))} {m : Mesh F},
    ParRuns (r1 ++ r2) m m' ↔ ∃ m1, ParRuns r1 m m1 ∧ ParRuns r2 m1 m'
  | [], m => by simp [parRuns_nil]
  | l :: r1, m => by
    simp only [List.cons_append, parRuns_cons, parRuns_append (r1 := r1)]
    constructor
    · rintro ⟨a, h1, b, h2, h3⟩; exact ⟨b, ⟨a, h1, h2⟩, h3⟩
    · rintro ⟨b, ⟨a, h1, h2⟩, h3⟩; exact ⟨a, h1, b, h2, h3⟩

theorem ParRuns.wf {rs : List (Mesh F → List (Nat × (Nat → Prog Loc F Unit)))} {m m' : Mesh F} (h : ParRuns rs m m') (w : m.WF) :
    m'.WF := by
  induction h with
  | nil m => exact w
  | cons h _ ih => exact ih (h.wf w)

theorem parDns_iff (bil : Bool) (sg sn : F) (m' : Mesh F) : ∀ (n : Nat) {m : Mesh F}, m.WF →
    (ParRuns (dnRuns bil sg sn n) m m' ↔ dnLoop bil sg sn n m = .ok () m')
  | 0, m, _ => by
    rw [dnRuns, parRuns_nil, dnLoop, pure_apply]
    simp [eq_comm]
  | n + 1, m, w => by
    have ht : ∀ m1, ParRuns (tauRuns (Scalar.lit 1 2) (Scalar.lit 53 100) 0 6) m m1 ↔ smoothTaubinDefault m = .ok () m1 := by
      intro m1
      rw [parTaus_iff _ _ _ _ _ w]
      unfold smoothTaubinDefault smoothTaubin
      rw [if_pos (by omega)]
    rw [dnRuns, parRuns_append, dnLoop, bindUnit_ok]
    simp only [parRuns_cons, bindUnit_ok, ht]
    constructor
    · rintro ⟨m1, h0, m2, h1, h2⟩
      have w1 := ((ht m1).2 h0).wf w
      exact ⟨m1, h0, m2, (parDn_iff w1 _ _ _ m2).1 h1, (parDns_iff bil sg sn m' n (h1.wf w1)).1 h2⟩
    · rintro ⟨m1, h0, m2, h1, h2⟩
      have w1 := ((ht m1).2 h0).wf w
      have h1 := (parDn_iff w1 _ _ _ m2).2 h1
      exact ⟨m1, h0, m2, h1, (parDns_iff bil sg sn m' n (h1.wf w1)).2 h2⟩

end
end TinyMesh
