import Verif.Proof.FrontQ
/-
All rounds over the reals.
-/
namespace TinyMesh
open Orbit EuclideanGeometry
variable {m0 m m' : Mesh XR} {f : Nat} {p : Nat → E3}

/-- the edges of the front lie on the front only once -/
theorem FrontInv.rev_out {F : Type} {m0 m : Mesh F} {f : Nat} (I : FrontInv m0 m f) {b : Nat} (ab : m.hAlive b = true) (fb : m.hFace b = f) :
    m.hFace (m.hRev b) ≠ f := by
  intro e
  have w := I.wf
  have ar := w.rev_alive _ ab
  have aq := w.next_alive _ ab
  have e1 : m.hRev b = m.hNext b := I.simple _ _ ar aq e (by rw [w.face_next _ ab, fb]) (w.src_rev _ ab)
  have s2 : m.hSrc (m.hNext (m.hRev b)) = m.hSrc b := by rw [← w.src_rev _ ar, w.rev_rev _ ab]
  have e2 : m.hNext (m.hRev b) = b := I.simple _ _ (w.next_alive _ ar) ab (by rw [w.face_next _ ar, e]) fb s2
  rw [e1] at e2
  -- the loop has two sides
  have l := w.faceLoop I.af
  have sub : ∀ h ∈ orbit m.hNext (m.fHe f), h ∈ [b, m.hNext b] := by
    intro h hh
    obtain ⟨ah, eh⟩ := (l.mem h).1 hh
    obtain ⟨n, hn⟩ := w.face_conn b h ab ah (by rw [fb, eh])
    have key : ∀ n, m.hNext^[n] b ∈ [b, m.hNext b] := by
      intro n
      induction n with
      | zero => simp
      | succ n ih =>
        rw [Function.iterate_succ_apply']
        rcases List.mem_cons.1 ih with k | k
        · rw [k]; simp
        · rw [List.mem_singleton.1 k, e2]; simp
    rw [← hn]
    exact key n
  have := (l.nodup.subperm sub).length_le
  have := I.n3
  simp only [List.length_cons, List.length_nil] at *
  omega

/-- the faces that stay keep their number of sides -/
theorem FrontInv.sides_old {F : Type} {m0 m : Mesh F} {f : Nat} (S : FrontStart m0 f) (I : FrontInv m0 m f) {g : Nat} (ag : m0.fAlive g = true) (gf : g ≠ f) :
    m.sides g = m0.sides g := by
  have l0 := S.wf.faceLoop ag
  have ag1 := I.fold g ag
  have l1 := I.wf.faceLoop ag1
  rw [← S.wf.loop_length ag, ← I.wf.loop_length ag1]
  refine (List.perm_ext_iff_of_nodup l1.nodup l0.nodup |>.2 fun h => ?_).length_eq
  rw [l0.mem, l1.mem]
  constructor
  · rintro ⟨a, e⟩
    have := I.new h a (by rw [e]; exact ag) (by rw [e]; exact gf)
    exact ⟨this.1, this.2.trans e⟩
  · rintro ⟨a, e⟩
    have := I.out h a (by rw [e]; exact gf)
    exact ⟨this.1, this.2.2.2.trans e⟩

/-- the faces behind the front are triangles in every round -/
theorem FrontInv.triBehind (S : FrontStart m0 f) (I : FrontInv m0 m f)
    (t3 : ∀ h, m0.hAlive h = true → m0.hFace h ≠ f → m0.CornerOf f (m0.hSrc h) → m0.CornerOf f (m0.hSrc (m0.hNext h)) → m0.sides (m0.hFace h) = 3) :
    m.TriBehind f := by
  intro h ah fh
  have w := I.wf
  have nf := I.rev_out ah fh
  refine ⟨nf, ?_⟩
  have ar := w.rev_alive _ ah
  by_cases o : m0.fAlive (m.hFace (m.hRev h)) = true
  · rw [I.sides_old S o nf]
    obtain ⟨a0, e0⟩ := I.new _ ar o nf
    have nf0 : m0.hFace (m.hRev h) ≠ f := by rw [e0]; exact nf
    obtain ⟨_, s1, n1, _⟩ := I.out _ a0 nf0
    have an := S.wf.next_alive _ a0
    have s2 := (I.out _ an (by rw [S.wf.face_next _ a0]; exact nf0)).2.1
    have k1 : m0.hSrc (m.hRev h) = m.hSrc (m.hNext h) := by rw [← s1, w.src_rev _ ah]
    have k2 : m0.hSrc (m0.hNext (m.hRev h)) = m.hSrc h := by rw [← s2, ← n1, ← w.src_rev _ ar, w.rev_rev _ ah]
    rw [← e0]
    refine t3 _ a0 nf0 ?_ ?_
    · obtain ⟨x, ax, fx, sx⟩ := I.front _ (w.next_alive _ ah) (by rw [w.face_next _ ah, fh]) (by rw [← k1]; exact S.wf.src_alive _ a0)
      exact ⟨x, ax, fx, by rw [sx, k1]⟩
    · obtain ⟨x, ax, fx, sx⟩ := I.front _ ah fh (by rw [← k2]; exact S.wf.src_alive _ an)
      exact ⟨x, ax, fx, by rw [sx, k2]⟩
  · exact sides_three w (w.face_alive _ ar) fun h' a' e => I.tri h' a' (by rw [e]; simpa using o)

/-- a merge of two vertices -/
theorem MergeEnd.merged (w : m.WF) (af : m.fAlive f = true) {a b q c0 c1 c2 t : Nat} (B : Behind m f a b q c0 c1 c2 t) (R : MergeEnd m m' f a b q c0 c1 c2 t) :
    m.MergedTo m' f b (Vec3.smul (Scalar.lit 1 2) ((m.vPos (m.hSrc b)).add (m.vPos (m.hSrc q)))) := by
  have w' := R.wf w B
  have T := R.tab
  have h0 : m.hAlive c0 = true := B.rb ▸ w.rev_alive b B.ab
  have h1 : m.hAlive c1 = true := B.n0 ▸ w.next_alive _ h0
  have f1 : m.hFace c1 = t := by rw [← B.n0, w.face_next _ h0, B.ft]
  have f2 : m.hFace c2 = t := by rw [← B.n1, w.face_next _ h1, f1]
  have af' : m'.fAlive f = true := (T.fa f).2 ⟨B.tf.symm, af⟩
  have tal : ∀ h, m'.hAlive h = true ↔ h ≠ b ∧ h ≠ c0 ∧ h ≠ c1 ∧ h ≠ c2 ∧ m.hAlive h = true := T.al
  have tfc : ∀ h, m'.hFace h = m.hFace h := T.fco
  refine ⟨?_, T.va, ⟨?_, ?_⟩, ?_⟩
  · have l := w.faceLoop af
    have l' := w'.faceLoop af'
    have p : (orbit m'.hNext (m'.fHe f)).Perm ((orbit m.hNext (m.fHe f)).erase b) := by
      rw [List.perm_ext_iff_of_nodup l'.nodup (l.nodup.erase b)]
      intro h
      rw [l'.mem, tal, tfc, l.nodup.mem_erase_iff, l.mem]
      constructor
      · rintro ⟨⟨q1, q2, q3, q4, q5⟩, e⟩
        exact ⟨q1, q5, e⟩
      · rintro ⟨q1, q5, e⟩
        exact ⟨⟨q1, fun e' => B.tf (by rw [← B.ft, ← e', e]), fun e' => B.tf (by rw [← f1, ← e', e]), fun e' => B.tf (by rw [← f2, ← e', e]), q5⟩, e⟩
    have mem : b ∈ orbit m.hNext (m.fHe f) := (l.mem b).2 ⟨B.ab, B.fb⟩
    have e := p.length_eq
    have pos := List.length_pos_of_mem mem
    rw [List.length_erase_of_mem mem, w'.loop_length af'] at e
    rw [w.loop_length af] at e pos
    omega
  · rw [B.nb, R.pos, upd_same]
  · intro u _ n
    rw [R.pos, upd_ne _ _ (by rw [← B.nb]; exact n)]
  · intro g
    rw [B.rb, B.ft]
    exact T.fa g

theorem closeAt_exact (A : m.AtE p) (w : m.WF) {L : ℝ} {b q : Nat} (ab : m.hAlive b = true) (aq : m.hAlive q = true) :
    m.closeAt (.fin L) b q = true ↔ m.vLock (m.hSrc b) = false ∧ dist (p (m.hSrc b)) (p (m.hSrc q)) < L / 2 := by
  unfold Mesh.closeAt
  rw [((A _ (w.src_alive _ ab)).sub (A _ (w.src_alive _ aq))).length, X_lit, X_mul, X_lt, R_lit, ← dist_eq_norm]
  have : ((1 : ℤ) : ℝ) / ((2 : ℕ) : ℝ) * L = L / 2 := by push_cast; ring
  rw [this, Bool.and_eq_true, R_lt, Bool.not_eq_true']

theorem small_exact (r : ℝ) : Scalar.le (XR.fin r) frontSmall = true ↔ r ≤ Real.pi * (75 / 180) := by
  unfold frontSmall
  rw [X_pi, X_lit, X_lit, X_div _ (by rw [R_lit]; norm_num), X_mul, X_le, R_le, R_lit, R_lit]
  push_cast
  norm_num

theorem large_exact (r : ℝ) : Scalar.le (XR.fin r) frontLarge = true ↔ r ≤ Real.pi * (135 / 180) := by
  unfold frontLarge
  rw [X_pi, X_lit, X_lit, X_div _ (by rw [R_lit]; norm_num), X_mul, X_le, R_le, R_lit, R_lit]
  push_cast
  norm_num

/-- what a round does over the reals -/
theorem FrontStep.round (A : m.AtE p) (w : m.WF) (af : m.fAlive f = true) (T : m.TriBehind f) {L : ℝ}
    (beh : ∀ {hs : List Nat} {pp prev i next qq p a b q : Nat}, Corner m f hs pp prev i next qq p a b q → m.vLock (m.hSrc b) = false →
      Behind m f a b q (m.hRev b) (m.hNext (m.hRev b)) (m.hNext (m.hNext (m.hRev b))) (m.hFace (m.hRev b)))
    (s : FrontStep (.fin L) m f (.ok false m')) : m.FrontRound m' p f L := by
  have nn : m.NoClose (.fin L) f → ∀ b, m.hAlive b = true → m.hFace b = f →
      ¬ (m.vLock (m.hSrc b) = false ∧ dist (p (m.hSrc b)) (p (m.hSrc (m.hNext b))) < L / 2) := by
    intro nc b ab fb h
    have := (closeAt_exact A w ab (w.next_alive _ ab)).2 h
    rw [nc b ab fb] at this
    exact absurd this (by simp)
  unfold Mesh.FrontRound
  dsimp only
  generalize e : Out.ok false m' = o at s
  cases s with
  | @merge hs pp prev i next qq p1 a b q m2 C c s R =>
    injection e with e1 e2
    subst e2
    left
    have B := beh C (closeAt_unlocked c)
    refine ⟨b, _, C.ab, C.fb, ?_, R.merged w af B, ?_⟩
    · have := (closeAt_exact A w C.ab C.aq).1 c
      rw [C.nb]
      exact this
    · have h := ((A _ (w.src_alive _ C.ab)).add (A _ (w.src_alive _ C.aq))).smul (1 / 2)
      have l : (Scalar.lit 1 2 : XR) = .fin (1 / 2) := by rw [X_lit, R_lit]; norm_num
      rw [l, C.nb, midpoint_eq_smul_add]
      have : (⅟2 : ℝ) = 1 / 2 := by norm_num
      rw [this]
      exact h
  | @ear hs pp prev i next qq p1 a b q t C nc hl e1 s =>
    injection e with e2 e3
    subst e3
    obtain ⟨ht, mn⟩ := pick_open A w af T hl C e1
    rw [ht, small_exact] at s
    exact .inr ⟨nn nc, a, C.aa, C.fa, mn, .inl ⟨s, earMesh_cut w af C⟩⟩
  | @mid hs pp prev i next qq p1 a b q t x C nc hl e1 s l ex =>
    injection e with e2 e3
    subst e3
    obtain ⟨ht, mn⟩ := pick_open A w af T hl C e1
    rw [ht, Bool.eq_false_iff, Ne, small_exact] at s
    rw [ht, large_exact] at l
    obtain ⟨O, ox⟩ := midMesh_one (x := x) w af C
    refine .inr ⟨nn nc, a, C.aa, C.fa, mn, .inr (.inl ⟨not_le.1 s, l, m.vFresh, O, ?_⟩)⟩
    rw [ox, C.na, C.nb]
    obtain ⟨k1, k2⟩ := mid_exact (A _ (w.src_alive _ C.aa)) (A _ (w.src_alive _ C.ab)) (A _ (w.src_alive _ C.aq))
    by_cases z : (p (m.hSrc a) - p (m.hSrc b)) + (p (m.hSrc q) - p (m.hSrc b)) = 0
    · rw [k1 z] at ex; exact absurd ex (by simp)
    · obtain ⟨v, h1, h2⟩ := k2 z
      rw [h1] at ex
      rw [← Option.some.inj ex]
      exact h2
  | @wide hs pp prev i next qq p1 a b q t x y C nc hl e1 s l ex =>
    injection e with e2 e3
    subst e3
    obtain ⟨ht, mn⟩ := pick_open A w af T hl C e1
    rw [ht, Bool.eq_false_iff, Ne, large_exact] at l
    obtain ⟨O, ox, oy⟩ := wideMesh_two (x := x) (y := y) w af C
    refine .inr ⟨nn nc, a, C.aa, C.fa, mn, .inr (.inr ⟨not_le.1 l, m.vFresh, m.vFresh + 1, O, ?_⟩)⟩
    rw [ox, oy, C.na, C.nb]
    obtain ⟨k1, k2⟩ := thirds_exact (A _ (w.src_alive _ C.aa)) (A _ (w.src_alive _ C.ab)) (A _ (w.src_alive _ C.aq))
    by_cases z1 : (2 : ℝ) • (p (m.hSrc a) - p (m.hSrc b)) + (p (m.hSrc q) - p (m.hSrc b)) = 0
    · rw [k1 (.inl z1)] at ex; exact absurd ex (by simp)
    · by_cases z2 : (p (m.hSrc a) - p (m.hSrc b)) + (2 : ℝ) • (p (m.hSrc q) - p (m.hSrc b)) = 0
      · rw [k1 (.inr z2)] at ex; exact absurd ex (by simp)
      · obtain ⟨v, v', h1, h2, h3⟩ := k2 z1 z2
        rw [h1] at ex
        have := Option.some.inj ex
        injection this with e1 e2
        subst e1 e2
        refine ⟨h2, ?_⟩
        unfold thirdPlace
        rw [add_comm (2 * dist _ _), add_comm ((2 : ℝ) • _)]
        exact h3
  | mergeAbort => exact absurd e (by simp)
  | angleThrow => exact absurd e (by simp)
  | noAngle => exact absurd e (by simp)
  | bisectorThrow => exact absurd e (by simp)

/-- why a round fails over the reals -/
theorem FrontStep.fails (A : m.AtE p) (w : m.WF) (af : m.fAlive f = true) (T : m.TriBehind f) {L : XR} {e : Err} (s : FrontStep L m f (.err e))
    (n4 : 4 ≤ (orbit m.hNext (m.fHe f)).length) :
    e = .throw ∧ ∃ a, m.hAlive a = true ∧ m.hFace a = f ∧
      (m.areaVec p (m.hFace (m.hRev a)) = 0 ∨
       unitOf (m.areaVec p (m.hFace (m.hRev a))) + unitOf (m.areaVec p (m.hFace (m.hRev (m.hNext a)))) = 0 ∨
       ((2 : ℝ) • (p (m.hSrc a) - p (m.hSrc (m.hNext a))) + (p (m.hSrc (m.hNext (m.hNext a))) - p (m.hSrc (m.hNext a))) = 0 ∨
        (p (m.hSrc a) - p (m.hSrc (m.hNext a))) + (2 : ℝ) • (p (m.hSrc (m.hNext (m.hNext a))) - p (m.hSrc (m.hNext a))) = 0)) := by
  refine ⟨FrontStep.throw ⟨p, A⟩ w af n4 s, ?_⟩
  have len : ∀ {hs : List Nat}, FaceLoop m f hs → 4 ≤ hs.length := by
    intro hs hl
    have l := w.faceLoop af
    have : hs.length = (orbit m.hNext (m.fHe f)).length := by
      refine (List.perm_ext_iff_of_nodup hl.nodup l.nodup |>.2 fun h => ?_).length_eq
      rw [hl.mem, l.mem]
    omega
  generalize h : Out.err e = o at s
  have th := FrontStep.throw (avg := L) (e := e) ⟨p, A⟩ w af n4
  cases s with
  | mergeAbort C c s =>
    exfalso
    injection h with h
    subst h
    exact absurd (th (.mergeAbort C c s)) (by simp)
  | noAngle nc hl e =>
    exfalso
    injection h with h
    subst h
    exact absurd (th (.noAngle nc hl e)) (by simp)
  | @angleThrow hs nc hl i hi e1 =>
    obtain ⟨pp, prev, next, qq, p1, a, b, q, C⟩ := w.corner af hl (len hl) hi
    rw [C.angle hl.nodup] at e1
    have ra := w.rev_alive _ C.aa
    have rb := w.rev_alive _ C.ab
    obtain ⟨na0, na1⟩ := frontNormal_exact A w (w.face_alive _ ra) (T a C.aa C.fa).2
    obtain ⟨nb0, nb1⟩ := frontNormal_exact A w (w.face_alive _ rb) (T b C.ab C.fb).2
    by_cases za : m.areaVec p (m.hFace (m.hRev a)) = 0
    · exact ⟨a, C.aa, C.fa, .inl za⟩
    by_cases zb : m.areaVec p (m.hFace (m.hRev b)) = 0
    · exact ⟨b, C.ab, C.fb, .inl zb⟩
    obtain ⟨n1, k1, k2⟩ := na1 za
    obtain ⟨n2, l1, l2⟩ := nb1 zb
    refine ⟨a, C.aa, C.fa, .inr (.inl ?_)⟩
    rw [C.na]
    by_contra zs
    obtain ⟨n', e3, hn⟩ := (k2.add l2).normalize zs
    unfold Mesh.frontAngle? at e1
    rw [k1, l1] at e1
    dsimp only at e1
    rw [e3] at e1
    exact absurd e1 (by simp)
  | @bisectorThrow hs pp prev i next qq p1 a b q t C nc hl e1 s d =>
    refine ⟨a, C.aa, C.fa, .inr (.inr ?_)⟩
    rw [C.na, C.nb]
    rcases d with ⟨d1, d2⟩ | ⟨d1, d2⟩
    · exfalso
      obtain ⟨ht, mn⟩ := pick_open A w af T hl C e1
      rw [ht, large_exact] at d1
      have z : (p (m.hSrc a) - p (m.hSrc b)) + (p (m.hSrc q) - p (m.hSrc b)) = 0 := by
        by_contra z
        obtain ⟨v, h1, _⟩ := (mid_exact (A _ (w.src_alive _ C.aa)) (A _ (w.src_alive _ C.ab)) (A _ (w.src_alive _ C.aq))).2 z
        rw [h1] at d2
        exact absurd d2 (by simp)
      -- the corner is straight
      have ang : EuclideanGeometry.angle (p (m.hSrc a)) (p (m.hSrc b)) (p (m.hSrc q)) = Real.pi ∨ p (m.hSrc a) = p (m.hSrc b) := by
        by_cases h0 : p (m.hSrc a) - p (m.hSrc b) = 0
        · exact .inr (sub_eq_zero.1 h0)
        · left
          unfold EuclideanGeometry.angle
          rw [vsub_eq_sub, vsub_eq_sub, show p (m.hSrc q) - p (m.hSrc b) = -(p (m.hSrc a) - p (m.hSrc b)) from (neg_eq_of_add_eq_zero_right z).symm]
          exact InnerProductGeometry.angle_self_neg_of_nonzero h0
      obtain ⟨kk, _⟩ := pickAngle_some e1
      have e4 : m.frontAngle? a b q = some t := by
        rcases kk with kk | ⟨j, hj, k1, k2, _⟩
        · exact absurd kk (by simp)
        · have := Option.some.inj k2
          subst this
          rw [← C.angle hl.nodup]
          exact k1
      have ne : p (m.hSrc a) ≠ p (m.hSrc b) := by
        have ra := w.rev_alive _ C.aa
        have sra : m.hSrc (m.hRev a) = m.hSrc b := by rw [w.src_rev _ C.aa, C.na]
        have nra : m.hSrc (m.hNext (m.hRev a)) = m.hSrc a := by rw [← w.src_rev _ ra, w.rev_rev _ C.aa]
        have za : m.areaVec p (m.hFace (m.hRev a)) ≠ 0 := by
          intro za
          unfold Mesh.frontAngle? at e4
          rw [(frontNormal_exact A w (w.face_alive _ ra) (T a C.aa C.fa).2).1 za] at e4
          exact absurd e4 (by simp)
        have := corners_ne (p := p) w ra (T a C.aa C.fa).2 za
        rw [sra, nra] at this
        exact this.symm
      have pa := ang.resolve_right ne
      have pp := Real.pi_pos
      have : m.openAngle p a = Real.pi := by
        unfold Mesh.openAngle
        dsimp only
        rw [C.na, C.nb, pa]
        split
        · rfl
        · ring
      rw [this] at d1
      nlinarith
    · by_contra hne
      push Not at hne
      obtain ⟨v, v', h1, _⟩ := (thirds_exact (A _ (w.src_alive _ C.aa)) (A _ (w.src_alive _ C.ab)) (A _ (w.src_alive _ C.aq))).2 hne.1 hne.2
      rw [h1] at d2
      exact absurd d2 (by simp)
  | _ => exact absurd h (by simp)

/-! ### The rounds of a run -/

/-- the meshes between the rounds of the loop -/
inductive FrontReached {F : Type} [Scalar F] (f : Nat) (avg : F) (m0 : Mesh F) : Mesh F → Prop
  | start : FrontReached f avg m0 m0
  | round {m m' : Mesh F} (r : FrontReached f avg m0 m) (e : frontRound f avg m = .ok false m') : FrontReached f avg m0 m'

theorem FrontReached.inv {F : Type} [Scalar F] {f : Nat} {avg : F} {m0 m : Mesh F} (S : FrontStart m0 f)
    (lk : ∀ h, m0.hAlive h = true → m0.hFace h = f → m0.vLock (m0.hSrc h) = true) (r : FrontReached f avg m0 m) : FrontInv m0 m f := by
  induction r with
  | start => exact S.inv
  | @round m m' r e I =>
    by_cases n3 : (orbit m.hNext (m.fHe f)).length = 3
    · rw [frontRound_last I n3] at e
      exact absurd e (by simp)
    · have n4 : 4 ≤ (orbit m.hNext (m.fHe f)).length := by have := I.n3; omega
      have s := frontRound_step I.wf I.af n4 (fun C ul => I.behind S lk C ul) avg
      rw [e] at s
      exact (s.inv S lk I n4).1

theorem FrontReached.finite {L : XR} (S : FrontStart m0 f) (lk : ∀ h, m0.hAlive h = true → m0.hFace h = f → m0.vLock (m0.hSrc h) = true)
    (A : ∃ p, m0.AtE p) (r : FrontReached f L m0 m) : ∃ p, m.AtE p := by
  induction r with
  | start => exact A
  | @round m m' r e ih =>
    have I := r.inv S lk
    by_cases n3 : (orbit m.hNext (m.fHe f)).length = 3
    · rw [frontRound_last I n3] at e
      exact absurd e (by simp)
    · have n4 : 4 ≤ (orbit m.hNext (m.fHe f)).length := by have := I.n3; omega
      have s := frontRound_step I.wf I.af n4 (fun C ul => I.behind S lk C ul) L
      rw [e] at s
      exact FrontStep.finite ih I.wf I.af s

end TinyMesh
