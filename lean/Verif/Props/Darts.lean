import Verif.Lemmas.Darts

/-! C46: the unrolled architecture gradient of DARTS. -/
namespace Verif.Darts

variable {B V A : Type} [AddCommGroup V] [Module ℚ V] [AddCommGroup A] [Module ℚ A]

/-- C46, weights: computing the unrolled gradient leaves the weights and the
architecture parameters exactly as they were, for every loss, batch and state. -/
theorem C46_restored (L : Loss B V A) (trn val : B) (lr momentum wd : ℚ) (buf : V)
    (epsOf : V → ℚ) (s : St V A) :
    (unrolled L trn val lr momentum wd buf epsOf s).w = s.w ∧
      (unrolled L trn val lr momentum wd buf epsOf s).a = s.a := by
  rw [unrolled_eq]; exact ⟨rfl, rfl⟩

/-- C46, what the architecture gradient is: with the gradients cleared, the sum
of the gradients of the training loss and of the validation loss at the
original weights and of the training loss at the two perturbed points.  No
difference is taken: both entries of `dalphas` are the same tensor. -/
theorem C46_gradient (L : Loss B V A) (trn val : B) (lr momentum wd : ℚ) (buf : V)
    (epsOf : V → ℚ) (s : St V A) :
    (unrolled L trn val lr momentum wd buf epsOf { s with ga := 0 }).ga =
      L.gA trn s.w s.a + L.gA val s.w s.a + L.gA trn (point1 L trn val epsOf s) s.a
        + L.gA trn (point2 L trn val epsOf s) s.a := by
  rw [unrolled_eq]; simp [point1, point2]

/-- C46, curvature: the term is zero whatever the losses are. -/
theorem C46_curvature_zero (L : Loss B V A) (trn : B) (epsOf : V → ℚ) (backup : V)
    (dw : Ref V A V) (s : St V A) : (hessian L trn epsOf backup dw s).2 = 0 := by
  simp [hessian, perturb]

/-- C46, the virtual step is never taken: neither the weights at which the
validation gradient is taken nor anything else depends on the learning rate,
the momentum or the weight decay. -/
theorem C46_no_virtual_step (L : Loss B V A) (trn val : B) (lr lr' m m' wd wd' : ℚ)
    (buf buf' : V) (epsOf : V → ℚ) (s : St V A) :
    unrolled L trn val lr m wd buf epsOf s = unrolled L trn val lr' m' wd' buf' epsOf s := by
  rw [unrolled_eq, unrolled_eq]

/-- C46 fails: for the training loss `w * a` and the validation loss `w` the
curvature is `1` and the unrolled gradient should be `-lr`, the program gives a
different one. -/
theorem C46_curvature_violated :
    ∃ (L : Loss Bool ℚ ℚ) (s : St ℚ ℚ) (lr : ℚ) (epsOf : ℚ → ℚ),
      (∀ d, 0 < epsOf d) ∧
      curvature L true s.w (L.gW false s.w s.a) s.a (epsOf 1) = 1 ∧
      (hessian L true epsOf s.w (fun _ => L.gW false s.w s.a) s).2 = 0 ∧
      unrolledSpec L true false lr 0 0 0 epsOf s.w s.a = -lr ∧
      (unrolled L true false lr 0 0 0 epsOf { s with ga := 0 }).ga ≠
        unrolledSpec L true false lr 0 0 0 epsOf s.w s.a := by
  refine ⟨bilinear, ⟨1, 1, 0, 0⟩, 1 / 10, fun _ => 1 / 100, ?_, ?_, ?_, ?_, ?_⟩
  · intro _; norm_num
  · norm_num [curvature, bilinear]
  · exact C46_curvature_zero ..
  · norm_num [unrolledSpec, curvature, virtualW, bilinear]
  · rw [C46_gradient]
    norm_num [unrolledSpec, curvature, virtualW, bilinear, point1, point2]

/-- C46, what the weights are updated with in the unrolled mode: the gradient
of the training batch at the new architecture plus every gradient accumulated
while the architecture gradient was computed. -/
theorem C46_update_unrolled (L : Loss B V A) (O : Opt V A) (lr momentum wd : ℚ) (buf : V)
    (epsOf : V → ℚ) (trn val : B) (s : St V A) :
    let s' := trainStep L O true lr momentum wd buf epsOf trn val s
    s'.w = O.stepW s.w (s.gw + L.gW trn s.w s.a + L.gW val s.w s.a
      + L.gW trn (point1 L trn val epsOf s) s.a + L.gW trn (point2 L trn val epsOf s) s.a
      + L.gW trn s.w s'.a) := by
  simp [trainStep, unrolled_eq, updateW, backward, point1, point2]

/-- The same in the first-order mode: the gradient of the validation batch is
added to the gradient of the training batch. -/
theorem C46_update_first_order (L : Loss B V A) (O : Opt V A) (lr momentum wd : ℚ) (buf : V)
    (epsOf : V → ℚ) (trn val : B) (s : St V A) :
    let s' := trainStep L O false lr momentum wd buf epsOf trn val s
    s'.w = O.stepW s.w (s.gw + L.gW val s.w s.a + L.gW trn s.w s'.a) := by
  simp [trainStep, updateA, updateW, backward]

/-- C46 fails: in both modes, in every iteration of every run that starts with
cleared gradients, the weight update contains the gradient of the validation
batch; and there is a run in which this changes the weights. -/
theorem C46_update_violated :
    (∀ (L : Loss B V A) (O : Opt V A) (lr momentum wd : ℚ) (buf : V) (epsOf : V → ℚ)
        (data : List (B × B)) (trn val : B) (s₀ : St V A), s₀.gw = 0 →
        let s := run L O false lr momentum wd buf epsOf s₀ data
        let s' := run L O false lr momentum wd buf epsOf s₀ (data ++ [(trn, val)])
        s'.w = O.stepW s.w (L.gW val s.w s.a + L.gW trn s.w s'.a)) ∧
    (∀ unroll : Bool, ∃ (L : Loss Bool ℚ ℚ) (O : Opt ℚ ℚ) (s : St ℚ ℚ),
        s.gw = 0 ∧ s.ga = 0 ∧
        let s' := trainStep L O unroll (1 / 10) 0 0 0 (fun _ => 1 / 100) true false s
        s'.w ≠ O.stepW s.w (L.gW true s.w s'.a)) := by
  constructor
  · intro L O lr momentum wd buf epsOf data trn val s₀ h
    have hg := run_gw L O false lr momentum wd buf epsOf data s₀ h
    simp only [run, List.foldl_append, List.foldl_cons, List.foldl_nil] at hg ⊢
    rw [C46_update_first_order, hg, zero_add]
  · intro unroll
    refine ⟨bilinear, ⟨fun w g => w - g, fun a _ => a⟩, ⟨1, 1, 0, 0⟩, rfl, rfl, ?_⟩
    cases unroll
    · norm_num [trainStep, updateA, updateW, backward, bilinear]
    · norm_num [trainStep, unrolled_eq, updateW, backward, bilinear, point1, point2]

/-- C46 fails for the architecture as well in the first-order mode: the
gradient that the weight update of one iteration leaves on the architecture
parameters is added to the architecture gradient of the next. -/
theorem C46_arch_violated (L : Loss B V A) (O : Opt V A) (lr momentum wd : ℚ) (buf : V)
    (epsOf : V → ℚ) (t₁ v₁ t₂ v₂ : B) (s₀ : St V A) :
    let s₁ := trainStep L O false lr momentum wd buf epsOf t₁ v₁ s₀
    let s₂ := trainStep L O false lr momentum wd buf epsOf t₂ v₂ s₁
    s₂.a = O.stepA s₁.a (L.gA t₁ s₀.w s₁.a + L.gA v₂ s₁.w s₁.a) := by
  simp [trainStep, updateA, updateW, backward]

/-- C46, where it does hold: if validation batches do not move the weights
(their weight gradient is zero) then in the first-order mode every update of
the weights uses exactly the gradient of the training batch. Missing: validation batches that move the weights, see
`C46_update_violated`. -/
theorem C46_update_partial (L : Loss B V A) (O : Opt V A) (lr momentum wd : ℚ) (buf : V)
    (epsOf : V → ℚ) (data : List (B × B)) (trn val : B) (s₀ : St V A) (h : s₀.gw = 0)
    (hv : ∀ w a, L.gW val w a = 0) :
    let s := run L O false lr momentum wd buf epsOf s₀ data
    let s' := run L O false lr momentum wd buf epsOf s₀ (data ++ [(trn, val)])
    s'.w = O.stepW s.w (L.gW trn s.w s'.a) := by
  have := (C46_update_violated (B := B) (V := V) (A := A)).1 L O lr momentum wd buf epsOf
    data trn val s₀ h
  simpa [hv] using this

/-- C46, one optimiser: the update uses exactly the gradient of the batch, in
every iteration of every run. -/
theorem C46_single (L : Loss B V A) (O : Opt V A) (data : List B) (b : B) (s₀ : St V A)
    (h : s₀.gw = 0) :
    let s := data.foldl (fun s b => trainSingle L O b s) s₀
    let s' := (data ++ [b]).foldl (fun s b => trainSingle L O b s) s₀
    s'.w = O.stepW s.w (L.gW b s.w s.a) ∧ s'.a = s₀.a := by
  have key : ∀ (data : List B) (s : St V A), s.gw = 0 →
      (data.foldl (fun s b => trainSingle L O b s) s).gw = 0 ∧
      (data.foldl (fun s b => trainSingle L O b s) s).a = s.a := by
    intro data
    induction data with
    | nil => intro s h; exact ⟨h, rfl⟩
    | cons b data ih =>
        intro s _
        exact ih _ rfl
  obtain ⟨h1, h2⟩ := key data s₀ h
  simp only [List.foldl_append, List.foldl_cons, List.foldl_nil]
  refine ⟨?_, ?_⟩
  · generalize data.foldl (fun s b => trainSingle L O b s) s₀ = s at h1
    simp [trainSingle, updateW, backward, h1]
  · exact h2

/-- C46, wrong number of batches is refused. -/
theorem C46_refused (L : Loss B V A) (O : Opt V A) (unroll : Bool) (lr momentum wd : ℚ)
    (buf : V) (epsOf : V → ℚ) (data : List B) (s : St V A) :
    (∃ s', trainStep? L O unroll lr momentum wd buf epsOf data s = .ok s') ↔
      data.length = 2 := by
  match data with
  | [] => simp [trainStep?]
  | [_] => simp [trainStep?]
  | [_, _] => simp [trainStep?]
  | _ :: _ :: _ :: _ => simp [trainStep?]

/-- A step of the bilinear loss: the weights move by `1 + 1` instead of `1`. -/
example : trainStep bilinear ⟨fun w g => w - g, fun a _ => a⟩ false (1 / 10) 0 0 0
    (fun _ => 1 / 100) true false (⟨1, 1, 0, 0⟩ : St ℚ ℚ) = ⟨-1, 1, 0, 1⟩ := by
  decide +kernel

/-- A validation loss that does not move the weights. -/
example : ∀ w a : ℚ, (Loss.mk (fun b _ a => if b then a else 0)
    (fun _ w _ => w) : Loss Bool ℚ ℚ).gW false w a = 0 := by
  intro w a; rfl

/-- C46, the second-order step of the architecture: the optimiser gets the gradients of this
iteration only, whatever was accumulated before. -/
theorem C46_arch_unrolled (L : Loss B V A) (O : Opt V A) (lr momentum wd : ℚ) (buf : V)
    (epsOf : V → ℚ) (trn val : B) (s : St V A) :
    (trainStep L O true lr momentum wd buf epsOf trn val s).a =
      O.stepA s.a (L.gA trn s.w s.a + L.gA val s.w s.a + L.gA trn (point1 L trn val epsOf s) s.a
        + L.gA trn (point2 L trn val epsOf s) s.a) := by
  simp [trainStep, unrolled_eq, updateW, backward, point1, point2]

/-- C46, other numbers of batches than two are refused by an assertion. -/
theorem C46_assertion (L : Loss B V A) (O : Opt V A) (unroll : Bool) (lr momentum wd : ℚ)
    (buf : V) (epsOf : V → ℚ) (data : List B) (s : St V A) (e : Verif.Err) :
    trainStep? L O unroll lr momentum wd buf epsOf data s = .error e ↔ data.length ≠ 2 ∧ e = .assertion := by
  match data with
  | [] => simp [trainStep?, eq_comm]
  | [_] => simp [trainStep?, eq_comm]
  | [_, _] => simp [trainStep?]
  | _ :: _ :: _ :: _ => simp [trainStep?, eq_comm]

end Verif.Darts
