import Verif.Base.Float

/-!
# C environment: configuration, memory, failure

`none` in the monad `M` stands for undefined behaviour (or a loop that never ends); everything the code observes about
memory is in `World`.
-/

namespace Verif

/-- Which transform implementation is linked (lib/transform/kiss_fft.c or lib/transform/fftw.c). -/
inductive Backend where
  | fftw
  | kiss
deriving DecidableEq, Repr

/-- Compile-time configuration and implementation-defined constants. -/
structure Cfg where
  /-- `SIZE_MAX` -/
  sizeMax : ℕ
  /-- `INT_MAX` -/
  intMax : ℕ
  /-- `LONG_MAX` -/
  longMax : ℕ
  /-- `PIXEL_MAX` (resdet_internal.h:32-34) -/
  pixelMax : ℕ
  /-- largest value of `rdint_index` (resdet_internal.h:36-44) -/
  idxMax : ℕ
  /-- largest value of `rdint_storage` (resdet_internal.h:36-44) -/
  storMax : ℕ
  /-- `DEFAULT_RANGE` (resdet_internal.h:52-58) -/
  defaultRange : ℕ
  /-- format of `coeff` (precision.h:21-32) -/
  coeff : Fmt
  /-- format of `intermediate` (precision.h:40-54) -/
  inter : Fmt
  szCoeff : ℕ
  szInter : ℕ
  /-- `sizeof(RDResolution)` -/
  szRes : ℕ
  /-- `sizeof(kiss_fft_scalar)` -/
  szKiss : ℕ
  /-- `sizeof(struct kiss_fft_state)` -/
  szFft : ℕ
  /-- `sizeof(struct kiss_fftr_state)` -/
  szFftr : ℕ
  /-- format of `kiss_fft_scalar` (configure:214-217) -/
  kiss : Fmt
  backend : Backend
  /-- the host is little endian -/
  littleEndian : Bool
  /-- plain `char` is signed -/
  charSigned : Bool

/-- What every supported build satisfies. -/
structure Cfg.WF (c : Cfg) : Prop where
  pixel_pos : 0 < c.pixelMax
  pixel_le : c.pixelMax ≤ c.sizeMax
  -- `rdint_index`, `rdint_storage` can hold `PIXEL_MAX` (uint32 if PIXEL_MAX <= UINT32_MAX, size_t otherwise)
  pixel_idx : c.pixelMax ≤ c.idxMax
  pixel_stor : c.pixelMax ≤ c.storMax
  range_pos : 0 < c.defaultRange
  range_le : c.defaultRange ≤ c.sizeMax
  coeff_wf : c.coeff.WF
  inter_wf : c.inter.WF
  szCoeff_two : 2 ≤ c.szCoeff
  szInter_pos : 0 < c.szInter
  szRes_pos : 0 < c.szRes
  szKiss_pos : 0 < c.szKiss
  int_pos : 0 < c.intMax
  int_long : c.intMax ≤ c.longMax

/-- The default build on LP64: `COEFF_PRECISION=F`, `INTER_PRECISION=D`, no `PIXEL_MAX` override. -/
def lp64 (b : Backend) : Cfg where
  sizeMax := 2 ^ 64 - 1
  intMax := 2 ^ 31 - 1
  longMax := 2 ^ 63 - 1
  pixelMax := 2 ^ 64 - 1
  idxMax := 2 ^ 64 - 1
  storMax := 2 ^ 64 - 1
  defaultRange := 12
  coeff := binary32
  inter := binary64
  szCoeff := 4
  szInter := 8
  szRes := 16
  szKiss := 4
  szFft := 272
  szFftr := 24
  kiss := binary32
  backend := b
  littleEndian := true
  charSigned := true

/-- `size_t` arithmetic: reduction modulo `SIZE_MAX + 1`. -/
def Cfg.sz (c : Cfg) (n : ℕ) : ℕ := n % (c.sizeMax + 1)
/-- `size_t` subtraction. -/
def Cfg.szSub (c : Cfg) (a b : ℕ) : ℕ := (a + (c.sizeMax + 1) - b % (c.sizeMax + 1)) % (c.sizeMax + 1)
/-- Conversion to `rdint_index`. -/
def Cfg.idx (c : Cfg) (n : ℕ) : ℕ := n % (c.idxMax + 1)
/-- `rdint_index` subtraction. -/
def Cfg.idxSub (c : Cfg) (a b : ℕ) : ℕ := (a + (c.idxMax + 1) - b % (c.idxMax + 1)) % (c.idxMax + 1)
/-- Conversion to `rdint_storage`. -/
def Cfg.stor (c : Cfg) (n : ℕ) : ℕ := n % (c.storMax + 1)

/-- Dynamic state of the C environment. -/
structure World where
  /-- live heap blocks -/
  live : List ℕ
  /-- open streams other than stdin -/
  files : List ℕ
  /-- identifier of the next block or stream -/
  next : ℕ
  /-- `sched k` tells whether the `k`-th allocation from now on succeeds -/
  sched : ℕ → Bool

/-- Identifiers in use are below `next` and distinct. -/
structure World.WF (w : World) : Prop where
  live_lt : ∀ b ∈ w.live, b < w.next
  files_lt : ∀ b ∈ w.files, b < w.next
  nodup : w.live.Nodup
  files_nodup : w.files.Nodup

/-- A C computation. -/
def M (α : Type) : Type := World → Option (α × World)

namespace M

/-- Finish with a value. -/
def pure {α : Type} (a : α) : M α := fun w => some (a, w)

/-- Sequencing. -/
def bind {α β : Type} (x : M α) (f : α → M β) : M β := fun w =>
  match x w with
  | none => none
  | some (a, w') => f a w'

instance : Monad M where
  pure := M.pure
  bind := M.bind

/-- Undefined behaviour. -/
def ub {α : Type} : M α := fun _ => none

/-- Lift a computation without memory effects. -/
def lift {α : Type} (x : Option α) : M α := fun w => x.map (fun a => (a, w))

@[simp] theorem pure_apply {α : Type} (a : α) (w : World) : (Pure.pure a : M α) w = some (a, w) := rfl

theorem bind_apply {α β : Type} (x : M α) (f : α → M β) (w : World) :
    (x >>= f) w = match x w with
      | none => none
      | some (a, w') => f a w' := rfl

@[simp] theorem bind_none {α β : Type} {x : M α} {f : α → M β} {w : World} (h : x w = none) :
    (x >>= f) w = none := by rw [bind_apply, h]

theorem bind_some {α β : Type} {x : M α} {f : α → M β} {w : World} {a : α} {w' : World} (h : x w = some (a, w')) :
    (x >>= f) w = f a w' := by rw [bind_apply, h]

theorem bind_eq_some {α β : Type} {x : M α} {f : α → M β} {w : World} {r : β × World} :
    (x >>= f) w = some r ↔ ∃ a w', x w = some (a, w') ∧ f a w' = some r := by
  rw [bind_apply]
  cases h : x w with
  | none => simp
  | some v => obtain ⟨a, w'⟩ := v; simp

instance : LawfulMonad M := LawfulMonad.mk'
  (id_map := by
    intro α x; funext w
    show M.bind x (fun a => M.pure (id a)) w = x w
    unfold M.bind; cases h : x w <;> rfl)
  (pure_bind := by intros; rfl)
  (bind_assoc := by
    intro α β γ x f g; funext w
    show M.bind (M.bind x f) g w = M.bind x (fun a => M.bind (f a) g) w
    unfold M.bind; cases x w <;> rfl)

@[simp] theorem lift_apply_some {α : Type} (a : α) (w : World) : M.lift (some a) w = some (a, w) := rfl
@[simp] theorem lift_apply_none {α : Type} (w : World) : (M.lift none : M α) w = none := rfl
@[simp] theorem ub_apply {α : Type} (w : World) : (M.ub : M α) w = none := rfl

end M

/-- The schedule after one allocation attempt. -/
def advance (s : ℕ → Bool) : ℕ → Bool := fun k => s (k + 1)

/-- C `malloc`: the schedule decides; `none` is NULL.  Requests the caller computed have already wrapped to `size_t`. -/
def malloc : M (Option ℕ) := fun w =>
  if w.sched 0 then
    some (some w.next, { w with live := w.next :: w.live, next := w.next + 1, sched := advance w.sched })
  else some (none, { w with sched := advance w.sched })

/-- C `calloc(n, size)`: also fails when the product exceeds `SIZE_MAX`. -/
def calloc (c : Cfg) (n size : ℕ) : M (Option ℕ) := fun w =>
  if n * size ≤ c.sizeMax then malloc w else some (none, { w with sched := advance w.sched })

/-- C `free`: NULL is ignored, freeing a dead block is undefined. -/
def free (p : Option ℕ) : M Unit := fun w =>
  match p with
  | none => some ((), w)
  | some b => if b ∈ w.live then some ((), { w with live := w.live.erase b }) else none

/-- Undefined unless the block is live: inserted where the C code dereferences a pointer into it. -/
def touch (b : ℕ) : M Unit := fun w => if b ∈ w.live then some ((), w) else none

/-- A heap array: the block that owns it and its elements. -/
structure Buf (α : Type) where
  id : ℕ
  data : List α
deriving Repr, DecidableEq

/-- Array read; out of bounds is undefined. -/
def rd {α : Type} (l : List α) (i : ℕ) : Option α := l[i]?

/-- Array write; out of bounds is undefined. -/
def wr {α : Type} (l : List α) (i : ℕ) (a : α) : Option (List α) :=
  if i < l.length then some (l.set i a) else none

/-- `for(i = lo; i < hi; i++) s = body(i, s)` -/
def loop {σ : Type} (lo hi : ℕ) (body : ℕ → σ → Option σ) (s : σ) : Option σ :=
  (List.range' lo (hi - lo)).foldlM (fun s i => body i s) s

/-- The same loop with an `rdint_index` counter: it never ends if the limit is beyond the counter's type. -/
def idxLoop {σ : Type} (c : Cfg) (lo hi : ℕ) (body : ℕ → σ → Option σ) (s : σ) : Option σ :=
  if hi ≤ c.idxMax then loop lo hi body s else none

/-- The error codes of resdet.h:26-35; negative numbers are negated errno values. -/
abbrev RDError := ℤ
/-- resdet.h:27 -/
def RDEOK : RDError := 0
/-- resdet.h:28 -/
def RDENOMEM : RDError := 1
/-- resdet.h:29 -/
def RDEINTERNAL : RDError := 2
/-- resdet.h:30 -/
def RDEINVAL : RDError := 3
/-- resdet.h:31 -/
def RDEUNSUPP : RDError := 4
/-- resdet.h:32 -/
def RDETOOBIG : RDError := 5
/-- resdet.h:33 -/
def RDEPARAM : RDError := 6
/-- resdet.h:34 -/
def RDENOIMG : RDError := 7

end Verif
