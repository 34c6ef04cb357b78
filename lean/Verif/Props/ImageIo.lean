import Verif.Model.ImageIo
import Verif.Props.Pixel
import Verif.Props.File
import Mathlib.Data.List.GetD

/-
C131-C134: picture formats and the name of the rendered picture.
-/

namespace Spectre.ImageIo

open Spectre.Img

/-! ### C131: a supported extension is supported by every operation -/

/-- The extensions of a format. -/
def extensions : Format → List String
  | .bmp => ["bmp"]
  | .tga => ["tga"]
  | .ppm => ["ppm"]
  | .jpg => ["jpg", "jpeg"]
  | .png => ["png"]
  | .tiff => ["tif", "tiff"]

/-- The extension belongs to the format, and the program has been built with it. -/
def Handles (b : Build) (ext : List Char) (f : Format) : Prop := present b f = true ∧ String.ofList ext ∈ extensions f

theorem ofList_eq (ext : List Char) (s : String) : String.ofList ext = s ↔ ext = s.toList := by
  constructor
  · rintro rfl; simp
  · rintro rfl; simp

/-- Full statement of C131: all five functions agree about every extension. -/
def C131_statement (b : Build) : Prop := ∀ ext f,
  (writer b ext = some f ↔ Handles b ext f) ∧ (checker b ext = some f ↔ Handles b ext f) ∧
  (reader b ext = some f ↔ Handles b ext f) ∧ (measurer b ext = some f ↔ Handles b ext f) ∧
  (supported b ext = true ↔ ∃ g, Handles b ext g)

theorem writer_iff (b : Build) (ext : List Char) (f : Format) : writer b ext = some f ↔ Handles b ext f := by
  unfold writer Handles
  by_cases h1 : ext = ['b', 'm', 'p']
  · subst h1; cases f <;> simp [extensions, present]
  by_cases h2 : ext = ['t', 'g', 'a']
  · subst h2; cases f <;> simp [extensions, present]
  by_cases h3 : ext = ['p', 'p', 'm']
  · subst h3; cases f <;> simp [extensions, present]
  by_cases h4 : ext = ['j', 'p', 'g']
  · subst h4; cases f <;> cases hb : b.jpeg <;> simp [extensions, present, hb]
  by_cases h5 : ext = ['j', 'p', 'e', 'g']
  · subst h5; cases f <;> cases hb : b.jpeg <;> simp [extensions, present, hb]
  by_cases h6 : ext = ['p', 'n', 'g']
  · subst h6; cases f <;> cases hb : b.png <;> simp [extensions, present, hb]
  by_cases h7 : ext = ['t', 'i', 'f']
  · subst h7; cases f <;> cases hb : b.tiff <;> simp [extensions, present, hb]
  by_cases h8 : ext = ['t', 'i', 'f', 'f']
  · subst h8; cases f <;> cases hb : b.tiff <;> simp [extensions, present, hb]
  cases f <;> simp [extensions, present, ofList_eq, h1, h2, h3, h4, h5, h6, h7, h8]

theorem checker_iff (b : Build) (ext : List Char) (f : Format) : checker b ext = some f ↔ Handles b ext f := by
  rw [← writer_iff]
  unfold checker
  by_cases h : ext = []
  · subst h; simp [writer]
  · rw [if_pos h]; rfl

theorem supported_iff (b : Build) (ext : List Char) : supported b ext = (writer b ext).isSome := by
  unfold supported writer
  by_cases h1 : ext = ['b', 'm', 'p']
  · simp [h1]
  by_cases h2 : ext = ['t', 'g', 'a']
  · simp [h2]
  by_cases h3 : ext = ['p', 'p', 'm']
  · simp [h3]
  rw [if_neg (by simp [h1, h2, h3]), if_neg h1, if_neg h2, if_neg h3]
  split
  · rfl
  split
  · rfl
  split <;> rfl

theorem measurer_eq (b : Build) (ext : List Char) (h : b.tiff = b.jpeg ∨ String.ofList ext ∉ extensions .tiff) :
    measurer b ext = writer b ext := by
  unfold measurer writer
  rcases h with h | h
  · rw [h]
  · have h' : ¬ (ext = ['t', 'i', 'f'] ∨ ext = ['t', 'i', 'f', 'f']) := by simpa [extensions, ofList_eq] using h
    simp only [h', and_false, if_false]

/-- **C131**, partial: writing, checking, reading and the list of supported extensions agree for every extension and
every choice of libraries. -/
theorem C131_dispatch (b : Build) (ext : List Char) (f : Format) :
    (writer b ext = some f ↔ Handles b ext f) ∧ (checker b ext = some f ↔ Handles b ext f) ∧
    (reader b ext = some f ↔ Handles b ext f) ∧ (supported b ext = true ↔ ∃ g, Handles b ext g) := by
  refine ⟨writer_iff b ext f, checker_iff b ext f, writer_iff b ext f, ?_⟩
  rw [supported_iff, Option.isSome_iff_exists]
  simp only [writer_iff]

/-- **C131**, partial: the size of a picture is found for the same extensions, if libtiff and libjpeg are both used or
both not used, or the extension is not that of a TIFF. -/
theorem C131_dimensions_partial (b : Build) (ext : List Char) (f : Format)
    (h : b.tiff = b.jpeg ∨ String.ofList ext ∉ extensions .tiff) : measurer b ext = some f ↔ Handles b ext f := by
  rw [measurer_eq b ext h, writer_iff]

/-- The full statement holds exactly for the builds with both libraries or with none of the two. -/
theorem C131_iff (b : Build) : C131_statement b ↔ b.tiff = b.jpeg := by
  constructor
  · intro h
    have := (h ['t', 'i', 'f'] .tiff).2.2.2.1
    have hm : measurer b ['t', 'i', 'f'] = some .tiff ↔ b.jpeg = true := by simp [measurer]
    have hh : Handles b ['t', 'i', 'f'] .tiff ↔ b.tiff = true := by simp [Handles, present, extensions]
    rw [hm, hh] at this
    cases h1 : b.tiff <;> cases h2 : b.jpeg <;> simp_all
  · intro h ext f
    obtain ⟨h1, h2, h3, h4⟩ := C131_dispatch b ext f
    exact ⟨h1, h2, h3, C131_dimensions_partial b ext f (Or.inl h), h4⟩

/-- **C131 is violated** by builds with libtiff and without libjpeg: a TIFF is supported, checked and read, but its size
is not determined.  With libjpeg and without libtiff `img_dimensions` calls a function that does not exist. -/
theorem C131_violated (png : Bool) :
    supported ⟨false, png, true⟩ "tif".toList = true ∧ checker ⟨false, png, true⟩ "tif".toList = some .tiff ∧
    reader ⟨false, png, true⟩ "tif".toList = some .tiff ∧ measurer ⟨false, png, true⟩ "tif".toList = none ∧
    measurer ⟨true, png, false⟩ "tif".toList = some .tiff ∧ present ⟨true, png, false⟩ .tiff = false ∧
    ¬ C131_statement ⟨false, png, true⟩ ∧ ¬ C131_statement ⟨true, png, false⟩ := by
  refine ⟨?_, ?_, ?_, ?_, ?_, ?_, ?_, ?_⟩
  · cases png <;> decide +kernel
  · cases png <;> decide +kernel
  · cases png <;> decide +kernel
  · cases png <;> decide +kernel
  · cases png <;> decide +kernel
  · rfl
  · rw [C131_iff]; simp
  · rw [C131_iff]; simp

example : Handles ⟨true, true, true⟩ "jpeg".toList .jpg ∧ ¬ Handles ⟨true, true, true⟩ "JPG".toList .jpg := by
  simp [Handles, present, extensions]

/-! ### Loops that build lists -/

theorem mapM_eq {α β : Type} (f : α → Option β) (g : α → β) : ∀ l : List α, (∀ x ∈ l, f x = some (g x)) →
    l.mapM f = some (l.map g) := by
  intro l
  induction l with
  | nil => intro _; rfl
  | cons a l ih =>
    intro h
    rw [List.mapM_cons, h a List.mem_cons_self, ih (fun x hx => h x (List.mem_cons_of_mem _ hx))]
    rfl

theorem mapM_none {α β : Type} (f : α → Option β) : ∀ l : List α, (∃ x ∈ l, f x = none) → l.mapM f = none := by
  intro l
  induction l with
  | nil => rintro ⟨x, hx, -⟩; cases hx
  | cons a l ih =>
    rintro ⟨x, hx, e⟩
    rw [List.mapM_cons]
    rcases List.mem_cons.1 hx with rfl | hx
    · rw [e]; rfl
    · rw [ih ⟨x, hx, e⟩]
      cases f a <;> rfl

theorem flatten_rows {β : Type} (w : Nat) (g : Nat → β) : ∀ h : Nat,
    ((List.range h).map fun y => (List.range w).map fun x => g (y * w + x)).flatten = (List.range (w * h)).map g := by
  intro h
  induction h with
  | zero => simp
  | succ h ih =>
    rw [List.range_succ, List.map_append, List.flatten_append, ih, Nat.mul_succ, List.range_add, List.map_append]
    simp [List.map_map, Function.comp_def, Nat.mul_comm]

theorem flatten_get {β : Type} (w : Nat) : ∀ (ls : List (List β)), (∀ l ∈ ls, l.length = w) → ∀ y x l, ls[y]? = some l →
    x < w → ls.flatten[y * w + x]? = l[x]? := by
  intro ls
  induction ls with
  | nil => intro _ y x l h; simp at h
  | cons a ls ih =>
    intro hl y x l h hx
    have ha := hl a List.mem_cons_self
    cases y with
    | zero =>
      simp only [List.getElem?_cons_zero, Option.some.injEq] at h
      rw [List.flatten_cons, Nat.zero_mul, Nat.zero_add, List.getElem?_append_left (by omega), h]
    | succ y =>
      rw [List.getElem?_cons_succ] at h
      rw [List.flatten_cons, List.getElem?_append_right (by rw [ha, Nat.succ_mul]; omega), ha,
        show (y + 1) * w + x - w = y * w + x by rw [Nat.succ_mul]; omega]
      exact ih (fun l hl' => hl l (List.mem_cons_of_mem _ hl')) y x l h hx

theorem sum_const {α : Type} (w : Nat) : ∀ l : List α, (l.map fun _ => w).sum = l.length * w := by
  intro l
  induction l with
  | nil => simp
  | cons a l ih => rw [List.map_cons, List.sum_cons, ih, List.length_cons, Nat.succ_mul, Nat.add_comm]

/-- Three samples for each element. -/
theorem triple_get {α β : Type} (a b c : α → β) : ∀ (l : List α) (x : Nat),
    (l.map fun p => [a p, b p, c p]).flatten[x * 3]? = (l[x]?).map a ∧
    (l.map fun p => [a p, b p, c p]).flatten[x * 3 + 1]? = (l[x]?).map b ∧
    (l.map fun p => [a p, b p, c p]).flatten[x * 3 + 2]? = (l[x]?).map c := by
  intro l
  induction l with
  | nil => intro x; simp
  | cons p l ih =>
    intro x
    cases x with
    | zero => simp
    | succ x =>
      obtain ⟨h1, h2, h3⟩ := ih x
      simp only [List.map_cons, List.flatten_cons, List.cons_append, List.nil_append]
      rw [show (x + 1) * 3 + 2 = x * 3 + 2 + 1 + 1 + 1 by omega, show (x + 1) * 3 + 1 = x * 3 + 1 + 1 + 1 + 1 by omega,
        show (x + 1) * 3 = x * 3 + 1 + 1 + 1 by omega]
      simp only [List.getElem?_cons_succ]
      exact ⟨h1, h2, h3⟩

/-! ### C132: pictures written with libpng, libtiff and libjpeg -/

/-- The samples of the pixels of row `y`: red, green and blue from left to right. -/
def rowOf (w : Nat) (data : List Pixel) (y : Nat) : List Byte :=
  ((List.range w).map fun x => [red (data.getD (y * w + x) 0), green (data.getD (y * w + x) 0),
    blue (data.getD (y * w + x) 0)]).flatten

/-- The rows of a picture from top to bottom. -/
def rowsOf (w h : Nat) (data : List Pixel) : List (List Byte) := (List.range h).map (rowOf w data)

theorem index_lt {w h x y : Nat} (hx : x < w) (hy : y < h) : y * w + x < w * h := by
  calc y * w + x < y * w + w := by omega
    _ = (y + 1) * w := by rw [Nat.succ_mul]
    _ ≤ h * w := Nat.mul_le_mul_right _ hy
    _ = w * h := Nat.mul_comm _ _

theorem scan_row (w h : Nat) (data : List Pixel) (hd : data.length = w * h) (y : Nat) (hy : y < h) :
    ((List.range w).mapM fun x => (data[y * w + x]?).map fun p => [red p, green p, blue p]) =
      some ((List.range w).map fun x => [red (data.getD (y * w + x) 0), green (data.getD (y * w + x) 0),
        blue (data.getD (y * w + x) 0)]) := by
  apply mapM_eq
  intro x hx
  rw [List.mem_range] at hx
  have hlt : y * w + x < data.length := by rw [hd]; exact index_lt hx hy
  rw [List.getElem?_eq_getElem hlt, List.getD_eq_getElem _ _ hlt]
  rfl

/-- **C132**, PNG: the rows given to the library. -/
theorem C132_png_rows (w h : Nat) (data : List Pixel) (hd : data.length = w * h) :
    pngWrite w h data = some (rowsOf w h data) := by
  unfold pngWrite rowsOf
  apply mapM_eq
  intro y hy
  rw [scan_row w h data hd y (List.mem_range.1 hy)]
  rfl

/-- Specification: what libpng makes of a row with three samples for a pixel when asked for a filler, `png_set_filler`. -/
def fill : List Byte → List Byte
  | r :: g :: b :: t => r :: g :: b :: 0xFF#8 :: fill t
  | _ => []

theorem fill_triples {α : Type} (a b c : α → Byte) : ∀ (l : List α),
    fill (l.map fun p => [a p, b p, c p]).flatten = (l.map fun p => [a p, b p, c p, 0xFF#8]).flatten := by
  intro l
  induction l with
  | nil => rfl
  | cons p l ih =>
    simp only [List.map_cons, List.flatten_cons, List.cons_append, List.nil_append, fill]
    rw [ih]

theorem quad_get {α β : Type} (a b c d : α → β) : ∀ (l : List α) (x : Nat),
    (l.map fun p => [a p, b p, c p, d p]).flatten[x * 4]? = (l[x]?).map a ∧
    (l.map fun p => [a p, b p, c p, d p]).flatten[x * 4 + 1]? = (l[x]?).map b ∧
    (l.map fun p => [a p, b p, c p, d p]).flatten[x * 4 + 2]? = (l[x]?).map c ∧
    (l.map fun p => [a p, b p, c p, d p]).flatten[x * 4 + 3]? = (l[x]?).map d := by
  intro l
  induction l with
  | nil => intro x; simp
  | cons p l ih =>
    intro x
    cases x with
    | zero => simp
    | succ x =>
      obtain ⟨h1, h2, h3, h4⟩ := ih x
      simp only [List.map_cons, List.flatten_cons, List.cons_append, List.nil_append]
      rw [show (x + 1) * 4 + 3 = x * 4 + 3 + 1 + 1 + 1 + 1 by omega,
        show (x + 1) * 4 + 2 = x * 4 + 2 + 1 + 1 + 1 + 1 by omega,
        show (x + 1) * 4 + 1 = x * 4 + 1 + 1 + 1 + 1 + 1 by omega,
        show (x + 1) * 4 = x * 4 + 1 + 1 + 1 + 1 by omega]
      simp only [List.getElem?_cons_succ]
      exact ⟨h1, h2, h3, h4⟩

theorem mk4_alpha (r g b : Byte) : mk4 r g b 0xFF#8 = mk r g b := by
  unfold mk4 mk
  ext i hi
  simp [BitVec.getElem_setWidth]
  each_bit i

/-- The four channels are kept apart. -/
theorem mk4_channels (r g b a : Byte) : red (mk4 r g b a) = r ∧ green (mk4 r g b a) = g ∧ blue (mk4 r g b a) = b ∧
    alpha (mk4 r g b a) = a := by
  refine ⟨?_, ?_, ?_, ?_⟩
  · ext i hi; simp [red, mk4, BitVec.getElem_setWidth]; each_bit i
  · ext i hi; simp [green, mk4, BitVec.getElem_setWidth]; each_bit i
  · ext i hi; simp [blue, mk4, BitVec.getElem_setWidth]; each_bit i
  · ext i hi; simp [alpha, mk4, BitVec.getElem_setWidth]; each_bit i

/-- **C132**, PNG with any samples: every pixel gets its own four channels. -/
theorem C132_png_read (w h : Nat) (px : Nat → Nat → Byte × Byte × Byte × Byte) :
    ∃ l, pngRead w ((List.range h).map fun y => ((List.range w).map fun x =>
        [(px y x).1, (px y x).2.1, (px y x).2.2.1, (px y x).2.2.2]).flatten) = some l ∧ l.length = w * h ∧
      ∀ y x, y < h → x < w → ∃ p, l[y * w + x]? = some p ∧ red p = (px y x).1 ∧ green p = (px y x).2.1 ∧
        blue p = (px y x).2.2.1 ∧ alpha p = (px y x).2.2.2 := by
  have e : pngRead w ((List.range h).map fun y => ((List.range w).map fun x =>
      [(px y x).1, (px y x).2.1, (px y x).2.2.1, (px y x).2.2.2]).flatten) =
      some ((List.range h).map fun y => (List.range w).map fun x =>
        mk4 (px y x).1 (px y x).2.1 (px y x).2.2.1 (px y x).2.2.2).flatten := by
    unfold pngRead
    rw [List.mapM_map, mapM_eq _ (fun y => (List.range w).map fun x =>
        mk4 (px y x).1 (px y x).2.1 (px y x).2.2.1 (px y x).2.2.2)]
    · rfl
    · intro y _
      apply mapM_eq
      intro x hx
      rw [List.mem_range] at hx
      obtain ⟨h1, h2, h3, h4⟩ := quad_get (fun x => (px y x).1) (fun x => (px y x).2.1) (fun x => (px y x).2.2.1)
        (fun x => (px y x).2.2.2) (List.range w) x
      have hr : (List.range w)[x]? = some x := by rw [List.getElem?_range hx]
      unfold pngPixel
      rw [Nat.add_zero]
      simp only [h1, h2, h3, h4, hr, Option.map_some]
  refine ⟨_, e, by simp [List.length_flatten, List.map_map, Function.comp_def, sum_const, Nat.mul_comm], ?_⟩
  intro y x hy hx
  refine ⟨mk4 (px y x).1 (px y x).2.1 (px y x).2.2.1 (px y x).2.2.2, ?_, mk4_channels _ _ _ _⟩
  rw [flatten_get w _ (by intro l hl; rw [List.mem_map] at hl; obtain ⟨r, -, rfl⟩ := hl; simp) y x
    ((List.range w).map fun x => mk4 (px y x).1 (px y x).2.1 (px y x).2.2.1 (px y x).2.2.2)
    (by rw [List.getElem?_map, List.getElem?_range hy]; rfl) hx, List.getElem?_map, List.getElem?_range hx]
  rfl

theorem range_getD (w h : Nat) (data : List Pixel) (hd : data.length = w * h) (f : Pixel → Pixel) :
    (List.range (w * h)).map (fun i => f (data.getD i 0)) = data.map f := by
  apply List.ext_getElem
  · simp [hd]
  · intro i h1 h2
    have hi : i < data.length := by simpa using h2
    simp [List.getElem?_eq_getElem hi]

/-- **C132**, PNG: a picture that was written is read back with the same colours, opaque. -/
theorem C132_png_round_trip (w h : Nat) (data : List Pixel) (hd : data.length = w * h) :
    ∃ rows, pngWrite w h data = some rows ∧ pngRead w (rows.map fill) = some (data.map (· ||| 0xFF#32)) := by
  refine ⟨_, C132_png_rows w h data hd, ?_⟩
  unfold pngRead rowsOf
  rw [List.mapM_map, List.mapM_map, mapM_eq _ (fun y => (List.range w).map fun x => (data.getD (y * w + x) 0) ||| 0xFF#32)]
  · rw [Option.map_some, flatten_rows w (fun i => (data.getD i 0) ||| 0xFF#32), range_getD w h data hd (· ||| 0xFF#32)]
  · intro y _
    apply mapM_eq
    intro x hx
    rw [List.mem_range] at hx
    unfold rowOf
    rw [fill_triples (fun x => red (data.getD (y * w + x) 0)) (fun x => green (data.getD (y * w + x) 0))
      (fun x => blue (data.getD (y * w + x) 0))]
    obtain ⟨h1, h2, h3, h4⟩ := quad_get (fun x => red (data.getD (y * w + x) 0))
      (fun x => green (data.getD (y * w + x) 0)) (fun x => blue (data.getD (y * w + x) 0)) (fun _ => 0xFF#8)
      (List.range w) x
    have hr : (List.range w)[x]? = some x := by rw [List.getElem?_range hx]
    unfold pngPixel
    rw [Nat.add_zero]
    simp only [h1, h2, h3, h4, hr, Option.map_some, mk4_alpha, mk_components]

/-- The rows written before the first failure, and the result. -/
theorem tiffRows_ok (w h : Nat) (data : List Pixel) (hd : data.length = w * h) (ok : Nat → Bool) : ∀ n y, y + n = h →
    (∀ i, y ≤ i → i < h → ok i = true) →
    tiffRows w data ok n y = some ((List.range n).map fun i => rowOf w data (y + i), h) := by
  intro n
  induction n with
  | zero => intro y hy _; simp [tiffRows]; omega
  | succ n ih =>
    intro y hy hok
    rw [tiffRows, scan_row w h data hd y (by omega)]
    simp only
    rw [if_pos (hok y (Nat.le_refl _) (by omega)), ih (y + 1) (by omega) (fun i h1 h2 => hok i (by omega) h2)]
    simp only [Option.map_some, List.range_succ_eq_map, List.map_cons, List.map_map]
    congr 2
    congr 1
    apply List.map_congr_left
    intro i _
    simp only [Function.comp_apply]
    congr 1
    omega

theorem tiffRows_fail (w h : Nat) (data : List Pixel) (hd : data.length = w * h) (ok : Nat → Bool) (k : Nat) (hk : k < h)
    (hbad : ok k = false) : ∀ n y, y + n = h → y ≤ k → (∀ i, y ≤ i → i < k → ok i = true) →
    tiffRows w data ok n y = some ((List.range (k - y)).map fun i => rowOf w data (y + i), k + 1) := by
  intro n
  induction n with
  | zero => intro y hy hle _; omega
  | succ n ih =>
    intro y hy hle hok
    rw [tiffRows, scan_row w h data hd y (by omega)]
    simp only
    rcases Nat.eq_or_lt_of_le hle with rfl | hlt
    · rw [if_neg (by rw [hbad]; simp)]; simp
    · rw [if_pos (hok y (Nat.le_refl _) hlt), ih (y + 1) (by omega) hlt (fun i h1 h2 => hok i (by omega) h2)]
      rw [show k - y = (k - (y + 1)) + 1 by omega]
      simp only [Option.map_some, List.range_succ_eq_map, List.map_cons, List.map_map]
      congr 2
      congr 1
      apply List.map_congr_left
      intro i _
      simp only [Function.comp_apply]
      congr 1
      omega

/-- Specification: the raster that `TIFFReadRGBAImage` delivers for rows with three samples for a pixel, with the last
row first. -/
def packRow : List Byte → List (BitVec 32)
  | r :: g :: b :: t => abgr r g b 0xFF#8 :: packRow t
  | _ => []

/-- See `packRow`. -/
def rasterOf (rows : List (List Byte)) : List (BitVec 32) := (rows.reverse.map packRow).flatten

theorem packRow_triples {α : Type} (a b c : α → Byte) : ∀ (l : List α),
    packRow (l.map fun p => [a p, b p, c p]).flatten = l.map fun p => abgr (a p) (b p) (c p) 0xFF#8 := by
  intro l
  induction l with
  | nil => rfl
  | cons p l ih =>
    simp only [List.map_cons, List.flatten_cons, List.cons_append, List.nil_append, packRow]
    rw [ih]

theorem tiffPixel_channels (r g b a : Byte) : tiffPixel 3 (abgr r g b a) = mk r g b ∧
    tiffPixel 4 (abgr r g b a) = mk4 r g b a := by
  constructor
  · unfold tiffPixel getR getG getB getA abgr mk
    ext i hi
    simp [BitVec.getElem_setWidth]
    each_bit i
  · unfold tiffPixel getR getG getB getA abgr mk4
    ext i hi
    simp [BitVec.getElem_setWidth]
    each_bit i

theorem raster_eq (w h : Nat) (data : List Pixel) : rasterOf (rowsOf w h data) =
    (List.range (w * h)).map fun i => abgr (red (data.getD ((h - 1 - i / w) * w + i % w) 0))
      (green (data.getD ((h - 1 - i / w) * w + i % w) 0)) (blue (data.getD ((h - 1 - i / w) * w + i % w) 0)) 0xFF#8 := by
  rw [← flatten_rows]
  unfold rasterOf rowsOf
  congr 1
  apply List.ext_getElem
  · simp
  · intro y h1 h2
    have hy : y < h := by simpa using h2
    rw [List.getElem_map, List.getElem_reverse, List.getElem_map, List.getElem_map, List.getElem_range, List.getElem_range]
    simp only [List.length_map, List.length_range]
    unfold rowOf
    rw [packRow_triples (fun x => red (data.getD ((h - 1 - y) * w + x) 0)) (fun x => green (data.getD ((h - 1 - y) * w + x) 0))
      (fun x => blue (data.getD ((h - 1 - y) * w + x) 0))]
    apply List.map_congr_left
    intro x hx
    rw [List.mem_range] at hx
    have hw : 0 < w := by omega
    have e1 : (y * w + x) / w = y := by
      rw [Nat.add_comm, Nat.add_mul_div_right _ _ hw, Nat.div_eq_of_lt hx, Nat.zero_add]
    have e2 : (y * w + x) % w = x := by rw [Nat.add_comm, Nat.add_mul_mod_self_right, Nat.mod_eq_of_lt hx]
    rw [e1, e2]

/-- **C132**, TIFF: a picture that was written is read back with the same colours, opaque. -/
theorem C132_tiff_round_trip (w h : Nat) (data : List Pixel) (hd : data.length = w * h) (ok : Nat → Bool)
    (hok : ∀ y, y < h → ok y = true) :
    ∃ rows, tiffWrite w h data ok = some (rows, true) ∧ rows = rowsOf w h data ∧
      tiffRead w h 3 (rasterOf rows) = some (true, data.map (· ||| 0xFF#32)) := by
  refine ⟨rowsOf w h data, ?_, rfl, ?_⟩
  · unfold tiffWrite
    rw [tiffRows_ok w h data hd ok h 0 (by omega) (fun i _ hi => hok i hi)]
    simp [rowsOf]
  · unfold tiffRead
    rw [if_pos (Or.inl rfl), mapM_eq _ (fun y => (List.range w).map fun x => (data.getD (y * w + x) 0) ||| 0xFF#32)]
    · rw [Option.map_some, flatten_rows w (fun i => (data.getD i 0) ||| 0xFF#32), range_getD w h data hd (· ||| 0xFF#32)]
    · intro y hy
      rw [List.mem_range] at hy
      apply mapM_eq
      intro x hx
      rw [List.mem_range] at hx
      have hw : 0 < w := by omega
      have hlt : (h - 1 - y) * w + x < w * h := index_lt hx (by omega)
      have e1 : ((h - 1 - y) * w + x) / w = h - 1 - y := by
        rw [Nat.add_comm, Nat.add_mul_div_right _ _ hw, Nat.div_eq_of_lt hx, Nat.zero_add]
      have e2 : ((h - 1 - y) * w + x) % w = x := by rw [Nat.add_comm, Nat.add_mul_mod_self_right, Nat.mod_eq_of_lt hx]
      rw [raster_eq, List.getElem?_map, List.getElem?_range hlt]
      simp only [Option.map_some, e1, e2]
      rw [show h - 1 - (h - 1 - y) = y by omega, (tiffPixel_channels _ _ _ _).1, mk_components]

/-- **C132**, TIFF with an alpha channel: every pixel of the raster gets its own channels, the rows turned upside
down. -/
theorem C132_tiff_alpha (w h : Nat) (raster : List (BitVec 32)) (px : Nat → Nat → Byte × Byte × Byte × Byte)
    (hr : ∀ y x, y < h → x < w → raster[(h - 1 - y) * w + x]? =
      some (abgr (px y x).1 (px y x).2.1 (px y x).2.2.1 (px y x).2.2.2)) :
    tiffRead w h 4 raster = some (true, ((List.range h).map fun y => (List.range w).map fun x =>
      mk4 (px y x).1 (px y x).2.1 (px y x).2.2.1 (px y x).2.2.2).flatten) := by
  unfold tiffRead
  rw [if_pos (Or.inr rfl), mapM_eq _ (fun y => (List.range w).map fun x =>
      mk4 (px y x).1 (px y x).2.1 (px y x).2.2.1 (px y x).2.2.2)]
  · rfl
  · intro y hy
    apply mapM_eq
    intro x hx
    rw [hr y x (List.mem_range.1 hy) (List.mem_range.1 hx), Option.map_some, (tiffPixel_channels _ _ _ _).2]

/-- **C132**, TIFF: pictures with another number of channels are refused, and nothing is written to the buffer. -/
theorem C132_tiff_grey (w h channels : Nat) (raster : List (BitVec 32)) (h3 : channels ≠ 3) (h4 : channels ≠ 4) :
    tiffRead w h channels raster = some (false, []) := by
  unfold tiffRead
  rw [if_neg (by rintro (h | h) <;> contradiction)]

/-- **C132**, JPEG: the rows given to the library are those of the other formats. -/
theorem C132_jpg_rows (w h : Nat) (data : List Pixel) (hd : data.length = w * h) :
    jpgWrite w h data = some (rowsOf w h data) := by
  unfold jpgWrite
  have e : ((List.range (w * h)).mapM fun i => (data[i]?).map fun p => [red p, green p, blue p]) =
      some ((List.range (w * h)).map fun i => [red (data.getD i 0), green (data.getD i 0), blue (data.getD i 0)]) := by
    apply mapM_eq
    intro i hi
    rw [List.mem_range] at hi
    have hlt : i < data.length := by rw [hd]; exact hi
    rw [List.getElem?_eq_getElem hlt, List.getD_eq_getElem _ _ hlt]
    rfl
  rw [e]
  simp only
  unfold rowsOf
  congr 1
  apply List.map_congr_left
  intro y hy
  rw [List.mem_range] at hy
  have hl : ∀ n, ((List.range n).map fun i => [red (data.getD i 0), green (data.getD i 0), blue (data.getD i 0)]).flatten.length =
      3 * n := by
    intro n
    simp [List.length_flatten, List.map_map, Function.comp_def, sum_const, Nat.mul_comm]
  have hsplit : w * h = y * w + (w + (w * h - y * w - w)) := by
    have : y * w + w ≤ w * h := by
      calc y * w + w = (y + 1) * w := by rw [Nat.succ_mul]
        _ ≤ h * w := Nat.mul_le_mul_right _ hy
        _ = w * h := Nat.mul_comm _ _
    omega
  rw [hsplit, List.range_add, List.map_append, List.flatten_append,
    List.drop_left' (by rw [hl]; rw [Nat.mul_comm y 3, Nat.mul_assoc]), List.range_add, List.map_append, List.map_append,
    List.flatten_append, List.take_left']
  · unfold rowOf
    rw [List.map_map]
    rfl
  · rw [List.map_map]
    simp [List.length_flatten, List.map_map, Function.comp_def, sum_const, Nat.mul_comm]

example : pngWrite 2 1 [0x10203040#32, 0x50607080#32] = some [[0x30#8, 0x20#8, 0x10#8, 0x70#8, 0x60#8, 0x50#8]] := by
  decide +kernel

/-! ### C133: a picture that could not be written is reported -/

/-- Full statement of C133 for TIFF: if the result is success, all rows have been written. -/
def C133_statement : Prop := ∀ (w h : Nat) (data : List Pixel) (ok : Nat → Bool) (rows : List (List Byte)),
  data.length = w * h → tiffWrite w h data ok = some (rows, true) → rows = rowsOf w h data

/-- What `tiff_write` does when row `k` is the first that cannot be written: the rows before are written, and failure is
reported unless it is the last row. -/
theorem C133_failure (w h : Nat) (data : List Pixel) (hd : data.length = w * h) (ok : Nat → Bool) (k : Nat) (hk : k < h)
    (hbad : ok k = false) (hgood : ∀ i, i < k → ok i = true) :
    tiffWrite w h data ok = some (rowsOf w k data, decide (k + 1 = h)) := by
  unfold tiffWrite
  rw [tiffRows_fail w h data hd ok k hk hbad h 0 (by omega) (Nat.zero_le _) (fun i _ hi => hgood i hi)]
  simp [rowsOf]

/-- **C133**, partial: a failure before the last row is reported. -/
theorem C133_reported_partial (w h : Nat) (data : List Pixel) (hd : data.length = w * h) (ok : Nat → Bool) (k : Nat)
    (hk : k + 1 < h) (hbad : ok k = false) : ∃ rows, tiffWrite w h data ok = some (rows, false) := by
  obtain ⟨j, hj, hmin⟩ : ∃ j, (j ≤ k ∧ ok j = false) ∧ ∀ i, i < j → ok i = true := by
    classical
    have hex : ∃ j, ok j = false := ⟨k, hbad⟩
    refine ⟨Nat.find hex, ⟨Nat.find_min' hex hbad, Nat.find_spec hex⟩, ?_⟩
    intro i hi
    have := Nat.find_min hex hi
    simpa using this
  rw [C133_failure w h data hd ok j (by omega) hj.2 hmin]
  exact ⟨_, by rw [decide_eq_false (by omega)]⟩

/-- **C133 is violated**: if only the last row cannot be written, success is reported for every picture. -/
theorem C133_violated (w h : Nat) (data : List Pixel) (hd : data.length = w * (h + 1)) :
    tiffWrite w (h + 1) data (fun y => y ≠ h) = some (rowsOf w h data, true) ∧ ¬ C133_statement := by
  have key : ∀ (w h : Nat) (data : List Pixel), data.length = w * (h + 1) →
      tiffWrite w (h + 1) data (fun y => y ≠ h) = some (rowsOf w h data, true) := by
    intro w h data hd
    rw [C133_failure w (h + 1) data hd (fun y => y ≠ h) h (by omega) (by simp) (by intro i hi; simp; omega)]
    simp
  refine ⟨key w h data hd, ?_⟩
  intro hs
  have h1 := hs 1 1 [0#32] _ _ rfl (key 1 0 [0#32] rfl)
  have := congrArg List.length h1
  simp [rowsOf] at this

/-! ### C134: JPEG rows are read inside of their buffer -/

/-- Specification: the colour of a pixel with the samples `s`: grey or red, green and blue. -/
def colour : List Byte → Option Pixel
  | [v] => some (mk v v v)
  | [r, g, b] => some (mk r g b)
  | _ => none

/-- Specification: the samples of pixel `x` of a row. -/
def samples (j : Jpeg) (row : List Byte) (x : Nat) : List Byte := (row.drop (x * j.components)).take j.components

/-- Full statement of C134: the rows of grey and colour pictures are decoded, every pixel from its own samples. -/
def C134_statement : Prop := ∀ j : Jpeg, j.WellFormed → (j.components = 1 ∨ j.components = 3) →
  ∃ l, jpgRead j = some l ∧ ∀ y x row, j.rows[y]? = some row → x < j.width → l[y * j.width + x]? = colour (samples j row x)

/-- **C134**, partial: colour pictures are decoded, every pixel from its own three samples. -/
theorem C134_colour_partial (j : Jpeg) (hj : j.WellFormed) (h3 : j.components = 3) :
    ∃ l, jpgRead j = some l ∧ l.length = j.rows.length * j.width ∧
      ∀ y x row, j.rows[y]? = some row → x < j.width →
        ∃ p, l[y * j.width + x]? = some p ∧ colour (samples j row x) = some p := by
  have hpix : ∀ row : List Byte, row.length = j.width * 3 → ∀ x < j.width,
      jpgPixel row x = some (mk (row.getD (x * 3) 0) (row.getD (x * 3 + 1) 0) (row.getD (x * 3 + 2) 0)) ∧
      (row.drop (x * 3)).take 3 = [row.getD (x * 3) 0, row.getD (x * 3 + 1) 0, row.getD (x * 3 + 2) 0] := by
    intro row hrow x hx
    have h0 : x * 3 < row.length := by omega
    have h1 : x * 3 + 1 < row.length := by omega
    have h2 : x * 3 + 2 < row.length := by omega
    constructor
    · unfold jpgPixel
      rw [Nat.add_zero, List.getElem?_eq_getElem h0, List.getElem?_eq_getElem h1, List.getElem?_eq_getElem h2,
        List.getD_eq_getElem _ _ h0, List.getD_eq_getElem _ _ h1, List.getD_eq_getElem _ _ h2]
    · rw [List.getD_eq_getElem _ _ h0, List.getD_eq_getElem _ _ h1, List.getD_eq_getElem _ _ h2,
        List.drop_eq_getElem_cons h0, List.drop_eq_getElem_cons h1, List.drop_eq_getElem_cons h2]
      rfl
  have hrow : ∀ row ∈ j.rows, jpgRow j.width row = some ((List.range j.width).map fun x =>
      mk (row.getD (x * 3) 0) (row.getD (x * 3 + 1) 0) (row.getD (x * 3 + 2) 0)) := by
    intro row hr
    apply mapM_eq
    intro x hx
    exact (hpix row (by rw [hj row hr, h3]) x (List.mem_range.1 hx)).1
  have e : jpgRead j = some (j.rows.map fun row => (List.range j.width).map fun x =>
      mk (row.getD (x * 3) 0) (row.getD (x * 3 + 1) 0) (row.getD (x * 3 + 2) 0)).flatten := by
    unfold jpgRead
    rw [mapM_eq _ _ _ hrow]
    rfl
  refine ⟨_, e, ?_, ?_⟩
  · simp [List.length_flatten, List.map_map, Function.comp_def, sum_const]
  · intro y x row hy hx
    have hmem : row ∈ j.rows := List.mem_of_getElem? hy
    refine ⟨mk (row.getD (x * 3) 0) (row.getD (x * 3 + 1) 0) (row.getD (x * 3 + 2) 0), ?_, ?_⟩
    · rw [flatten_get j.width _ (by intro l hl; rw [List.mem_map] at hl; obtain ⟨r, -, rfl⟩ := hl; simp) y x
        ((List.range j.width).map fun x => mk (row.getD (x * 3) 0) (row.getD (x * 3 + 1) 0) (row.getD (x * 3 + 2) 0))
        (by rw [List.getElem?_map, hy]; rfl) hx, List.getElem?_map, List.getElem?_range hx]
      rfl
    · unfold samples
      rw [h3, (hpix row (by rw [hj row hmem, h3]) x hx).2]
      rfl

/-- **C134 is violated** by every grey picture: the last pixel of every row is read behind the end of the row. -/
theorem C134_violated_grey (j : Jpeg) (hj : j.WellFormed) (h1 : j.components = 1) (hw : 0 < j.width) (hr : j.rows ≠ []) :
    jpgRead j = none := by
  obtain ⟨row, hrow⟩ := List.exists_mem_of_ne_nil _ hr
  have hlen : row.length = j.width := by rw [hj row hrow, h1, Nat.mul_one]
  unfold jpgRead
  rw [mapM_none (jpgRow j.width) j.rows ⟨row, hrow, ?_⟩]
  · rfl
  · apply mapM_none
    refine ⟨j.width - 1, List.mem_range.2 (by omega), ?_⟩
    unfold jpgPixel
    rw [show row[(j.width - 1) * 3 + 2]? = none from List.getElem?_eq_none (by omega)]
    cases row[(j.width - 1) * 3 + 0]? <;> cases row[(j.width - 1) * 3 + 1]? <;> rfl

/-- **C134 is violated**. -/
theorem C134_violated : ¬ C134_statement := by
  intro h
  obtain ⟨l, hl, -⟩ := h ⟨1, 1, [[0#8]]⟩ (by intro r hr; simp at hr; simp [hr]) (Or.inl rfl)
  rw [C134_violated_grey ⟨1, 1, [[0#8]]⟩ (by intro r hr; simp at hr; simp [hr]) rfl (by decide) (by simp)] at hl
  cases hl

/-- Pictures with four components are decoded from the wrong samples: the second pixel of this row begins with the last
sample of the first one. -/
theorem C134_violated_cmyk : jpgRead ⟨2, 4, [[1#8, 2#8, 3#8, 4#8, 5#8, 6#8, 7#8, 8#8]]⟩ =
    some [mk 1#8 2#8 3#8, mk 4#8 5#8 6#8] := by decide +kernel

/-- **C134**, PNG signature, partial: files of at least 8 bytes are accepted exactly if they begin with the signature. -/
theorem C134_png_signature_partial (head tail : List Byte) (h : head.length = 8) :
    pngValid (head ++ tail) = some (decide (head = [137#8, 80#8, 78#8, 71#8, 13#8, 10#8, 26#8, 10#8])) := by
  unfold pngValid
  rw [if_pos (by rw [List.length_append]; omega), List.take_left' h]

/-- **C134 is violated** by short files named `.png`: bytes that were never read are compared with the signature. -/
theorem C134_violated_png_short (file : List Byte) (h : file.length < 8) : pngValid file = none := by
  unfold pngValid
  rw [if_neg (by omega)]

example : ∃ l, jpgRead ⟨2, 3, [[1#8, 2#8, 3#8, 4#8, 5#8, 6#8]]⟩ = some l ∧ l.length = 2 := by
  obtain ⟨l, h, hl, -⟩ := C134_colour_partial ⟨2, 3, [[1#8, 2#8, 3#8, 4#8, 5#8, 6#8]]⟩
    (by intro r hr; simp at hr; simp [hr]) rfl
  exact ⟨l, h, hl⟩

/-! ### C135: the rendered picture is saved under a name with a supported extension -/

open Spectre.Path

/-- Specification: the part of a name after its last dot; empty if there is no dot or the dot comes first. -/
def IsExtension (c e : List Char) : Prop :=
  (∃ a, a ≠ [] ∧ c = a ++ '.' :: e ∧ '.' ∉ e) ∨ (e = [] ∧ ('.' ∉ c ∨ ∃ b, c = '.' :: b ∧ '.' ∉ b))

theorem last_dot : ∀ (c : List Char), '.' ∈ c → ∃ a b, c = a ++ '.' :: b ∧ '.' ∉ b := by
  intro c h
  obtain ⟨x, y, e, hy⟩ := List.eq_append_cons_of_mem (List.mem_reverse.2 h)
  refine ⟨y.reverse, x.reverse, ?_, by simpa using hy⟩
  rw [← List.reverse_reverse c, e]
  simp

theorem extension_exists (c : List Char) : ∃ e, IsExtension c e := by
  by_cases h : '.' ∈ c
  · obtain ⟨a, b, e, hb⟩ := last_dot c h
    by_cases ha : a = []
    · exact ⟨[], Or.inr ⟨rfl, Or.inr ⟨b, by rw [e, ha]; rfl, hb⟩⟩⟩
    · exact ⟨b, Or.inl ⟨a, ha, e, hb⟩⟩
  · exact ⟨[], Or.inr ⟨rfl, Or.inl h⟩⟩

/-- The `File` for a path with a name: its path, extension and folder. -/
theorem file_facts (c : List Char) (st : List (List Char)) (hd : IsDir (c :: st)) (e : List Char) (he : IsExtension c e) :
    ∃ f, mkObj (render (c :: st)) = some f ∧ f.absolute = some (render (c :: st)) ∧ f.extension = some e ∧
      (getParent f).bind Obj.absolute = some (render st) := by
  obtain ⟨f, hf, -, h1, h2, h3⟩ := C75_extension c st hd
  obtain ⟨f', hf', hden⟩ := mkObj_denotes c st hd
  rw [hf] at hf'
  injection hf' with hff
  subst hff
  obtain ⟨g, hg, hga⟩ := C49_absolute f c st hden hd
  have hr : render (c :: st) = body (c :: st) := by unfold render; rw [if_neg (by simp)]
  refine ⟨f, by rw [hr]; exact hf, by rw [hr]; exact hden.1, ?_, by rw [hg]; exact hga⟩
  rcases he with ⟨a, ha, hc, hn⟩ | ⟨rfl, h | ⟨b, hb, hn⟩⟩
  · exact h1 a e hc hn ha
  · exact h3 h
  · exact h2 b hb hn

/-- A path names the file `c` in the folder `st`, and the file `c.ppm` when `.ppm` is added. -/
def Names (cwd p c : List Char) (st : List (List Char)) : Prop :=
  ctorString cwd p = some (render (c :: st)) ∧
  ctorString cwd (p ++ ['.', 'p', 'p', 'm']) = some (render ((c ++ ['.', 'p', 'p', 'm']) :: st))

theorem isName_ppm {c : List Char} (h : IsName c) : IsName (c ++ ['.', 'p', 'p', 'm']) := by
  obtain ⟨h1, h2, h3, h4, -, -⟩ := h
  refine ⟨by simp, by simp [h2], by intro hm; rcases List.mem_append.1 hm with hm | hm; exact h3 hm; exact absurd hm (by decide), by simp [h4], ?_, ?_⟩
  · intro e
    have := congrArg List.length e
    simp at this
  · intro e
    have := congrArg List.length e
    simp at this

theorem isExtension_ppm {c : List Char} (h : c ≠ []) : IsExtension (c ++ ['.', 'p', 'p', 'm']) ['p', 'p', 'm'] :=
  Or.inl ⟨c, h, rfl, by decide⟩

/-- **C135**: what the film does with a path that names a file: it stops if that is a folder or its folder cannot be
written, keeps the path if the extension is supported, and adds `.ppm` otherwise. -/
theorem C135_film (b : Build) (fs : Fs) (cwd p c e : List Char) (st : List (List Char)) (hd : IsDir (c :: st))
    (he : IsExtension c e) (hp : Names cwd p c st) :
    ∃ f g, f.absolute = some (render (c :: st)) ∧ f.extension = some e ∧
      g.absolute = some (render ((c ++ ['.', 'p', 'p', 'm']) :: st)) ∧ g.extension = some ['p', 'p', 'm'] ∧
      openFilm b fs cwd p = some (
        if fs.folder (render (c :: st)) then .isFolder
        else if fs.writable (render st) then
          if supported b e then .out f
          else if fs.folder (render ((c ++ ['.', 'p', 'p', 'm']) :: st)) then .denied else .out g
        else .denied) := by
  have hcn := hd.2 c List.mem_cons_self
  have hd' : IsDir ((c ++ ['.', 'p', 'p', 'm']) :: st) := by
    refine ⟨by simp, ?_⟩
    intro d hdm
    rcases List.mem_cons.1 hdm with rfl | hdm
    · exact isName_ppm hcn
    · exact hd.2 d (List.mem_cons_of_mem _ hdm)
  obtain ⟨f, hf, ha, hx, hpar⟩ := file_facts c st hd e he
  obtain ⟨g, hg, ga, gx, -⟩ := file_facts _ st hd' _ (isExtension_ppm hcn.1)
  refine ⟨f, g, ha, hx, ga, gx, ?_⟩
  have hf1 : fileOf cwd p = some f := by unfold fileOf; rw [hp.1]; exact hf
  have hf2 : fileOf cwd (p ++ ['.', 'p', 'p', 'm']) = some g := by unfold fileOf; rw [hp.2]; exact hg
  unfold openFilm
  rw [hf1]
  simp only
  rw [ha, hx, hpar, hf2]
  simp only
  rw [ga]
  simp only
  split
  · rfl
  split
  · split
    · rfl
    split <;> rfl
  · rfl

/-- **C135**, partial: if the path names a file and the program goes on, the picture is written in a format of its
extension, under the given name or with `.ppm` added to it.  The full statement is about all paths; see
`C135_violated`. -/
theorem C135_saved_partial (b : Build) (fs : Fs) (cwd p c : List Char) (st : List (List Char)) (hd : IsDir (c :: st))
    (hp : Names cwd p c st) (f : Obj) (ho : openFilm b fs cwd p = some (.out f)) :
    ∃ e fmt, f.extension = some e ∧ Handles b e fmt ∧ saveFormat b f = some (some fmt) ∧
      ((IsExtension c e ∧ f.absolute = some (render (c :: st))) ∨
       (f.absolute = some (render ((c ++ ['.', 'p', 'p', 'm']) :: st)) ∧ fmt = .ppm ∧ ∀ x, IsExtension c x → ∀ g, ¬ Handles b x g)) := by
  obtain ⟨x, hx⟩ := extension_exists c
  obtain ⟨f1, g1, ha, he, ga, ge, hopen⟩ := C135_film b fs cwd p c x st hd hx hp
  rw [hopen] at ho
  injection ho with ho
  split at ho
  · cases ho
  split at ho
  · split at ho
    · rename_i hs
      injection ho with ho
      subst ho
      rw [supported_iff, Option.isSome_iff_exists] at hs
      obtain ⟨fmt, hfmt⟩ := hs
      refine ⟨x, fmt, he, (writer_iff b x fmt).1 hfmt, ?_, Or.inl ⟨hx, ha⟩⟩
      unfold saveFormat
      rw [he, Option.map_some, hfmt]
    · rename_i hs
      split at ho
      · cases ho
      · injection ho with ho
        subst ho
        refine ⟨['p', 'p', 'm'], .ppm, ge, by simp [Handles, present, extensions], ?_, Or.inr ⟨ga, rfl, ?_⟩⟩
        · unfold saveFormat
          rw [ge, Option.map_some]
          simp [writer]
        · intro y hy g hg
          obtain ⟨f2, -, -, he2, -⟩ := C135_film b fs cwd p c y st hd hy hp
          have hxy : y = x := by
            obtain ⟨f3, hm3, -, he3, -⟩ := file_facts c st hd x hx
            obtain ⟨f4, hm4, -, he4, -⟩ := file_facts c st hd y hy
            rw [hm3] at hm4
            injection hm4 with hm4
            rw [hm4, he4] at he3
            injection he3
          rw [hxy] at hg
          apply hs
          rw [supported_iff, (writer_iff b x g).2 hg]
          rfl
  · cases ho

theorem map_toSlash {c : List Char} (h : '\\' ∉ c) : c.map toSlash = c := by
  have : ∀ x ∈ c, toSlash x = x := by
    intro x hx
    unfold toSlash
    rw [if_neg]
    rintro rfl
    exact h hx
  rw [List.map_congr_left this, List.map_id']

/-- **C135**: the theorems apply to every file name in the working directory. -/
theorem C135_names (c : List Char) (st : List (List Char)) (hst : IsDir st) (hc : IsName c) : Names (render st) c c st := by
  have key : ∀ d, IsName d → ctorString (render st) d = some (render (d :: st)) := by
    intro d hdn
    have habs : isAbsolute d = false := by
      obtain ⟨h1, h2, -⟩ := hdn
      cases d with
      | nil => exact absurd rfl h1
      | cons x d =>
        unfold isAbsolute peek
        simp only [List.getD_cons_zero, decide_eq_false_iff_not]
        rintro rfl
        exact h2 List.mem_cons_self
    unfold ctorString
    rw [if_neg (by rw [habs]; simp)]
    have := append_name st hst d hdn
    unfold append at this
    rw [← this]
    congr 1
    omega
  exact ⟨key c hc, key _ (isName_ppm hc)⟩

theorem resolve_snoc (c : List Char) (hc : IsName c) : ∀ (cs st : List (List Char)),
    resolve st (cs ++ [c]) = c :: resolve st cs := by
  intro cs
  induction cs with
  | nil =>
    intro st
    obtain ⟨h1, -, -, -, h5, h6⟩ := hc
    simp [resolve, h1, h5, h6]
  | cons d cs ih =>
    intro st
    rw [List.cons_append, resolve, resolve]
    split
    · exact ih st
    split
    · exact ih _
    · exact ih _

theorem popsLong_snoc (c : List Char) : ∀ (cs st : List (List Char)), c ≠ ['.', '.'] → PopsLong st cs →
    PopsLong st (cs ++ [c]) := by
  intro cs
  induction cs with
  | nil =>
    intro st hc _
    rw [List.nil_append, PopsLong]
    split
    · trivial
    · exact trivial
  | cons d cs ih =>
    intro st hc h
    rw [List.cons_append, PopsLong]
    rw [PopsLong] at h
    split
    · rename_i h1; rw [if_pos h1] at h; exact ih _ hc h
    split
    · rename_i h1 h2; rw [if_neg h1, if_pos h2] at h; exact ⟨h.1, ih _ hc h.2⟩
    · rename_i h1 h2; rw [if_neg h1, if_neg h2] at h; exact ih _ hc h

/-- **C135**: the theorems apply to every absolute path of a file, with `.` and `..` among the folders as long as no
folder with a name of one character is left (see C48). -/
theorem C135_names_absolute (cwd c : List Char) (cs : List (List Char)) (hc : IsName c)
    (hcs : ∀ d ∈ cs, '/' ∉ d ∧ nul ∉ d ∧ '\\' ∉ d) (hpop : PopsLong [] cs) :
    Names cwd (joined (cs ++ [c])) c (resolve [] cs) := by
  have key : ∀ d, IsName d → ctorString cwd (joined (cs ++ [d])) = some (render (d :: resolve [] cs)) := by
    intro d hd
    have hall : ∀ x ∈ cs ++ [d], '/' ∉ x ∧ nul ∉ x ∧ '\\' ∉ x := by
      intro x hx
      rcases List.mem_append.1 hx with hx | hx
      · exact hcs x hx
      · rw [List.mem_singleton] at hx; rw [hx]; exact ⟨hd.2.1, hd.2.2.1, hd.2.2.2.1⟩
    have hnul : nul ∉ joined (cs ++ [d]) := by
      intro hm
      unfold joined at hm
      rw [List.mem_flatMap] at hm
      obtain ⟨x, hx, hm⟩ := hm
      rcases List.mem_cons.1 hm with hm | hm
      · exact absurd hm (by decide)
      · exact (hall x hx).2.1 hm
    have hbs : '\\' ∉ joined (cs ++ [d]) := by
      intro hm
      unfold joined at hm
      rw [List.mem_flatMap] at hm
      obtain ⟨x, hx, hm⟩ := hm
      rcases List.mem_cons.1 hm with hm | hm
      · exact absurd hm (by decide)
      · exact (hall x hx).2.2 hm
    have habs : isAbsolute (joined (cs ++ [d])) = true := by
      cases hl : cs ++ [d] with
      | nil => simp at hl
      | cons x l => rw [joined_cons]; rfl
    have hsplit : split (joined (cs ++ [d])) = [] :: (cs ++ [d]) := by
      have : ∀ (l : List (List Char)) (a : List Char), (∀ x ∈ l, '/' ∉ x) → '/' ∉ a → split (a ++ joined l) = a :: l := by
        intro l
        induction l with
        | nil =>
          intro a _ ha
          induction a with
          | nil => rfl
          | cons y a iha =>
            rw [List.cons_append, split, if_neg (by rintro rfl; exact ha List.mem_cons_self),
              iha (fun hm => ha (List.mem_cons_of_mem _ hm))]
        | cons b l ihl =>
          intro a hl ha
          induction a with
          | nil =>
            rw [List.nil_append, joined_cons, split, if_pos rfl,
              ihl b (fun x hx => hl x (List.mem_cons_of_mem _ hx)) (hl b List.mem_cons_self)]
          | cons y a iha =>
            rw [List.cons_append, split, if_neg (by rintro rfl; exact ha List.mem_cons_self),
              iha (fun hm => ha (List.mem_cons_of_mem _ hm))]
      exact this _ [] (fun x hx => (hall x hx).1) (by simp)
    have hres : resolve [] ([] :: (cs ++ [d])) = d :: resolve [] cs := by
      rw [resolve, if_pos (Or.inl rfl), resolve_snoc d hd]
    have := C48_absolute_partial cwd (joined (cs ++ [d])) hnul habs
      (by rw [map_toSlash hbs, hsplit, PopsLong, if_pos (Or.inl rfl)]; exact popsLong_snoc d cs [] hd.2.2.2.2.2 hpop)
      (by rw [map_toSlash hbs, hsplit, hres]; exact Or.inl (by simp))
    rw [this, map_toSlash hbs, hsplit, hres]
  refine ⟨key c hc, ?_⟩
  have hj : joined (cs ++ [c]) ++ ['.', 'p', 'p', 'm'] = joined (cs ++ [c ++ ['.', 'p', 'p', 'm']]) := by
    simp [joined]
  rw [hj]
  exact key _ (isName_ppm hc)

/-- **C135 is violated** by paths with a separator at the end: if `c` is no folder and has no supported extension, the
program goes on with the file `.ppm` in a folder `c` that does not exist; it has no extension, and no picture is
written when the rendering is done. -/
theorem C135_violated (b : Build) (fs : Fs) (c e : List Char) (st : List (List Char)) (hst : IsDir st) (hc : IsName c)
    (he : IsExtension c e) (hs : ∀ g, ¬ Handles b e g) (h1 : fs.folder (render (c :: st)) = false)
    (h2 : fs.writable (render st) = true)
    (h3 : fs.folder (render (['.', 'p', 'p', 'm'] :: c :: st)) = false) :
    ∃ f, openFilm b fs (render st) (c ++ ['/']) = some (.out f) ∧
      f.absolute = some (render (['.', 'p', 'p', 'm'] :: c :: st)) ∧ saveFormat b f = some none := by
  have hd : IsDir (c :: st) := by
    refine ⟨by simp, ?_⟩
    intro d hdm
    rcases List.mem_cons.1 hdm with rfl | hdm
    · exact hc
    · exact hst.2 d hdm
  have hppm : IsName ['.', 'p', 'p', 'm'] := by unfold IsName; decide
  have hd' : IsDir (['.', 'p', 'p', 'm'] :: c :: st) := by
    refine ⟨by simp, ?_⟩
    intro d hdm
    rcases List.mem_cons.1 hdm with rfl | hdm
    · exact hppm
    · exact hd.2 d hdm
  obtain ⟨c1, c2, c3, c4, c5, c6⟩ := hc
  have hsplit : ∀ (a t : List Char), '/' ∉ a → split (a ++ '/' :: t) = a :: split t := by
    intro a t
    induction a with
    | nil => intro _; rw [List.nil_append, split, if_pos rfl]
    | cons y a iha =>
      intro ha
      rw [List.cons_append, split, if_neg (by rintro rfl; exact ha List.mem_cons_self),
        iha (fun hm => ha (List.mem_cons_of_mem _ hm))]
  have key : ∀ (t : List Char) (l : List (List Char)), nul ∉ t → '\\' ∉ t → split t = l → PopsLong (c :: st) l →
      resolve (c :: st) l ≠ [] → ctorString (render st) (c ++ '/' :: t) = some (render (resolve (c :: st) l)) := by
    intro t l hn hb hl hpop hne
    have habs : isAbsolute (c ++ '/' :: t) = false := by
      cases c with
      | nil => exact absurd rfl c1
      | cons x d =>
        unfold isAbsolute peek
        simp only [List.cons_append, List.getD_cons_zero, decide_eq_false_iff_not]
        rintro rfl
        exact c2 List.mem_cons_self
    have hmap : (c ++ '/' :: t).map toSlash = c ++ '/' :: t := map_toSlash (by simp [c4, hb])
    have hsp : split ((c ++ '/' :: t).map toSlash) = c :: l := by rw [hmap, hsplit c t c2, hl]
    have hres : resolve st (c :: l) = resolve (c :: st) l := by
      rw [resolve, if_neg (by simp [c1, c5]), if_neg c6]
    have hpl : PopsLong st (c :: l) := by rw [PopsLong, if_neg (by simp [c1, c5]), if_neg c6]; exact hpop
    have := C48_append_partial st hst (c ++ '/' :: t) (by simp [c3, hn]; decide)
      ⟨by intro e; exact c2 (by
          have h' : '/' ∈ c ++ '/' :: t := by simp
          rw [e] at h'
          exact absurd h' (by decide)),
       by intro e; exact c2 (by
          have h' : '/' ∈ c ++ '/' :: t := by simp
          rw [e] at h'
          exact absurd h' (by decide))⟩
      (by rw [hsp, if_neg (by simp [c6])]; exact hpl)
      (by rw [hsp, hres]; exact Or.inl hne)
    rw [hsp, hres] at this
    unfold ctorString
    rw [if_neg (by rw [habs]; simp), ← this]
    unfold append
    congr 1
    omega
  have p1 := key [] [[]] (by simp) (by simp) rfl (by simp [PopsLong]) (by simp [resolve])
  have r1 : resolve (c :: st) [[]] = c :: st := by simp [resolve]
  rw [r1] at p1
  have s2 : split ['.', 'p', 'p', 'm'] = [['.', 'p', 'p', 'm']] := by decide
  have r2 : resolve (c :: st) [['.', 'p', 'p', 'm']] = ['.', 'p', 'p', 'm'] :: c :: st := by simp [resolve]
  have p2 := key ['.', 'p', 'p', 'm'] _ (by decide) (by decide) s2 (by simp [PopsLong]) (by rw [r2]; simp)
  rw [r2] at p2
  obtain ⟨f, hf, ha, hx, hpar⟩ := file_facts c st hd e he
  obtain ⟨g, hg, ga, gx, -⟩ := file_facts _ _ hd' [] (Or.inr ⟨rfl, Or.inr ⟨['p', 'p', 'm'], rfl, by decide⟩⟩)
  have hsup : supported b e = false := by
    rw [supported_iff]
    cases hw : writer b e with
    | none => rfl
    | some fmt => exact absurd ((writer_iff b e fmt).1 hw) (hs fmt)
  refine ⟨g, ?_, ga, ?_⟩
  · unfold openFilm fileOf
    rw [p1, Option.bind_some, hf]
    simp only
    rw [ha, hx, hpar]
    simp only
    rw [h1, h2, hsup]
    simp only [if_true, if_false, Bool.false_eq_true]
    rw [List.append_assoc, List.singleton_append, p2, Option.bind_some, hg]
    simp only
    rw [ga]
    simp only
    rw [h3]
    simp
  · unfold saveFormat
    rw [gx]
    simp [writer]

example : Names "/home/user".toList "out.png".toList "out.png".toList ["user".toList, "home".toList] :=
  C135_names "out.png".toList ["user".toList, "home".toList] (by decide +kernel) (by unfold IsName; decide +kernel)

end Spectre.ImageIo
