import Verif.BlasfeoApi
import Verif.MatForm
/-
C84: the functions of blasfeo_api. Whatever the BLASFEO library does, it is called with exactly the arguments of the caller as long as these are below 2^31, which holds
for every block inside a BLASFEO matrix; so if the library keeps its documented contract, the wrappers do what their comments say.
-/
namespace Blast
namespace BlasfeoApi
open Prog Finset
variable {V : Type}

theorem toInt_small {n : Nat} (h : n < 2 ^ 31) : toInt n = n := by
  unfold toInt
  exact Int.bmod_eq_of_le (by omega) (by omega)

/-! ### Specification -/

/-- an r-by-c block of a BLASFEO matrix, from element (i, j) -/
structure Block where
  M : CMat
  i : Nat
  j : Nat
  r : Nat
  c : Nat

/-- address of the element (p, q) of the block -/
def Block.cell (b : Block) (p q : Nat) : Int := b.M.addr (b.i + p) (b.j + q)

/-- the block lies inside the matrix; the sizes of the matrix are `int` -/
def Block.Inside (b : Block) : Prop := (b.i + b.r : Int) ≤ b.M.m ∧ (b.j + b.c : Int) ≤ b.M.n ∧ b.M.m < 2 ^ 31 ∧ b.M.n < 2 ^ 31

/-- the elements of the block in the region W are `f p q` -/
def Block.Has (W : Nat → Nat → Prop) (mem : Mem V) (b : Block) (f : Nat → Nat → V) : Prop := ∀ p q, p < b.r → q < b.c → W p q → mem (b.cell p q) = some (f p q)

/-- different elements of the block have different addresses -/
def Block.Distinct (b : Block) : Prop := ∀ p q p' q', p < b.r → q < b.c → p' < b.r → q' < b.c → b.cell p q = b.cell p' q' → p = p' ∧ q = q'

/-- every element of the block is in allocated memory -/
def Block.Live (mem : Mem V) (b : Block) : Prop := ∀ p q, p < b.r → q < b.c → mem (b.cell p q) ≠ none

/-- the two blocks have no cell in common -/
def Block.Apart (a b : Block) : Prop := ∀ p q p' q', p < a.r → q < a.c → p' < b.r → q' < b.c → a.cell p q ≠ b.cell p' q'

/-- a block that may be written: inside its matrix, in allocated memory, different elements in different cells -/
def Block.Target (mem : Mem V) (d : Block) : Prop := d.Inside ∧ d.Live mem ∧ d.Distinct

def all (_ _ : Nat) : Prop := True
def lower (p q : Nat) : Prop := q ≤ p
def upper (p q : Nat) : Prop := p ≤ q

/-- the program stores `f p q` in the region W of the block d and changes nothing outside the block -/
def Stores (W : Nat → Nat → Prop) (p : Prog V Unit) (mem : Mem V) (d : Block) (f : Nat → Nat → V) : Prop :=
  ∃ mem', p mem = .ok () mem' ∧ d.Has W mem' f ∧ ∀ x, (∀ p q, p < d.r → q < d.c → x ≠ d.cell p q) → mem' x = mem x

/-- an n-element part of a BLASFEO vector, from element i -/
structure VBlock where
  v : CVec
  i : Nat
  n : Nat

def VBlock.cell (b : VBlock) (p : Nat) : Int := b.v.addr (b.i + p)
def VBlock.Inside (b : VBlock) : Prop := (b.i + b.n : Int) ≤ b.v.m ∧ b.v.m < 2 ^ 31
def VBlock.Live (mem : Mem V) (b : VBlock) : Prop := ∀ p, p < b.n → mem (b.cell p) ≠ none
def VBlock.Distinct (b : VBlock) : Prop := ∀ p p', p < b.n → p' < b.n → b.cell p = b.cell p' → p = p'

/-- the program stores `f p` in the cell `cell p`, p < n, and changes nothing else -/
def VStores (p : Prog V Unit) (mem : Mem V) (n : Nat) (cell : Nat → Int) (f : Nat → V) : Prop :=
  ∃ mem', p mem = .ok () mem' ∧ (∀ p, p < n → mem' (cell p) = some (f p)) ∧ ∀ x, (∀ p, p < n → x ≠ cell p) → mem' x = mem x

/-- What the documentation of BLASFEO says about its functions, in exact arithmetic (`D <= beta * C + alpha * op(A) * op(B)` and so on), for blocks inside the matrices;
A and B have no cell in common with D, C is the block D itself or has no cell in common with it. -/
structure Lib.Correct [Field V] [LinearOrder V] (L : Lib V) : Prop where
  gemm_nn : ∀ (mem : Mem V) (A B C D : Block) (alpha beta : V) (a b c : Nat → Nat → V), A.Inside → B.Inside → C.Inside → D.Target mem → A.Apart D → B.Apart D → (C = D ∨ C.Apart D) →
    A.r = D.r → B.c = D.c → B.r = A.c → C.r = D.r → C.c = D.c → A.Has all mem a → B.Has all mem b → C.Has all mem c →
    Stores all (L.gemm_nn D.r D.c A.c alpha A.M A.i A.j B.M B.i B.j beta C.M C.i C.j D.M D.i D.j) mem D (fun p q => beta * c p q + alpha * ∑ k ∈ range A.c, a p k * b k q)
  gemm_nt : ∀ (mem : Mem V) (A B C D : Block) (alpha beta : V) (a b c : Nat → Nat → V), A.Inside → B.Inside → C.Inside → D.Target mem → A.Apart D → B.Apart D → (C = D ∨ C.Apart D) →
    A.r = D.r → B.r = D.c → B.c = A.c → C.r = D.r → C.c = D.c → A.Has all mem a → B.Has all mem b → C.Has all mem c →
    Stores all (L.gemm_nt D.r D.c A.c alpha A.M A.i A.j B.M B.i B.j beta C.M C.i C.j D.M D.i D.j) mem D (fun p q => beta * c p q + alpha * ∑ k ∈ range A.c, a p k * b q k)
  gemm_tn : ∀ (mem : Mem V) (A B C D : Block) (alpha beta : V) (a b c : Nat → Nat → V), A.Inside → B.Inside → C.Inside → D.Target mem → A.Apart D → B.Apart D → (C = D ∨ C.Apart D) →
    A.c = D.r → B.c = D.c → B.r = A.r → C.r = D.r → C.c = D.c → A.Has all mem a → B.Has all mem b → C.Has all mem c →
    Stores all (L.gemm_tn D.r D.c A.r alpha A.M A.i A.j B.M B.i B.j beta C.M C.i C.j D.M D.i D.j) mem D (fun p q => beta * c p q + alpha * ∑ k ∈ range A.r, a k p * b k q)
  trmm_rlnn : ∀ (mem : Mem V) (A B D : Block) (alpha : V) (a b : Nat → Nat → V), A.Inside → B.Inside → D.Target mem → A.Apart D → B.Apart D →
    A.r = D.c → A.c = D.c → B.r = D.r → B.c = D.c → A.Has lower mem a → B.Has all mem b →
    Stores all (L.trmm_rlnn D.r D.c alpha A.M A.i A.j B.M B.i B.j D.M D.i D.j) mem D (fun p q => alpha * ∑ k ∈ range D.c, b p k * if q ≤ k then a k q else 0)
  trmm_rutn : ∀ (mem : Mem V) (A B D : Block) (alpha : V) (a b : Nat → Nat → V), A.Inside → B.Inside → D.Target mem → A.Apart D → B.Apart D →
    A.r = D.c → A.c = D.c → B.r = D.r → B.c = D.c → A.Has upper mem a → B.Has all mem b →
    Stores all (L.trmm_rutn D.r D.c alpha A.M A.i A.j B.M B.i B.j D.M D.i D.j) mem D (fun p q => alpha * ∑ k ∈ range D.c, b p k * if q ≤ k then a q k else 0)
  syrk_ln : ∀ (mem : Mem V) (A B C D : Block) (alpha beta : V) (a b c : Nat → Nat → V), A.Inside → B.Inside → C.Inside → D.Target mem → A.Apart D → B.Apart D → (C = D ∨ C.Apart D) →
    A.r = D.r → D.c = D.r → B.r = D.r → B.c = A.c → C.r = D.r → C.c = D.r → A.Has all mem a → B.Has all mem b → C.Has lower mem c →
    Stores lower (L.syrk_ln D.r A.c alpha A.M A.i A.j B.M B.i B.j beta C.M C.i C.j D.M D.i D.j) mem D (fun p q => beta * c p q + alpha * ∑ k ∈ range A.c, a p k * b q k)
  syrk_potrf_ln : ∀ (mem : Mem V) (A B C D : Block) (a b c l : Nat → Nat → V), A.Inside → B.Inside → C.Inside → D.Target mem → A.Apart D → B.Apart D → (C = D ∨ C.Apart D) →
    A.r = D.r → D.c = D.r → B.r = D.r → B.c = A.c → C.r = D.r → C.c = D.r → A.Has all mem a → B.Has all mem b → C.Has lower mem c →
    IsCholesky D.r D.r l (fun p q => c p q + ∑ k ∈ range A.c, a p k * b q k) →
    Stores lower (L.syrk_potrf_ln D.r A.c A.M A.i A.j B.M B.i B.j C.M C.i C.j D.M D.i D.j) mem D l
  potrf_l : ∀ (mem : Mem V) (C D : Block) (c l : Nat → Nat → V), C.Inside → D.Target mem → (C = D ∨ C.Apart D) →
    D.c = D.r → C.r = D.r → C.c = D.r → C.Has lower mem c →
    IsCholesky D.r D.r l c →
    Stores lower (L.potrf_l D.r C.M C.i C.j D.M D.i D.j) mem D l
  pack_vec : ∀ (mem : Mem V) (x : Int) (y : VBlock) (f : Nat → V), y.Inside → y.Live mem → y.Distinct → (∀ p p' : Nat, p < y.n → p' < y.n → x + p ≠ y.cell p') →
    (∀ p : Nat, p < y.n → mem (x + p) = some (f p)) → VStores (L.pack_vec y.n x y.v y.i) mem y.n y.cell f
  unpack_vec : ∀ (mem : Mem V) (x : VBlock) (y : Int) (f : Nat → V), x.Inside → (∀ p : Nat, p < x.n → mem (y + p) ≠ none) → (∀ p p' : Nat, p < x.n → p' < x.n → x.cell p ≠ y + p') →
    (∀ p, p < x.n → mem (x.cell p) = some (f p)) → VStores (L.unpack_vec x.n x.v x.i y) mem x.n (fun p => y + p) f
  vecse : ∀ (mem : Mem V) (alpha : V) (x : VBlock), x.Inside → x.Live mem → x.Distinct → VStores (L.vecse x.n alpha x.v x.i) mem x.n x.cell (fun _ => alpha)
  vecsc : ∀ (mem : Mem V) (alpha : V) (x : VBlock) (f : Nat → V), x.Inside → x.Distinct → (∀ p, p < x.n → mem (x.cell p) = some (f p)) →
    VStores (L.vecsc x.n alpha x.v x.i) mem x.n x.cell (fun p => alpha * f p)

theorem Block.Inside.small {b : Block} (h : b.Inside) : toInt b.i = b.i ∧ toInt b.j = b.j ∧ toInt b.r = b.r ∧ toInt b.c = b.c := by
  obtain ⟨h1, h2, h3, h4⟩ := h
  exact ⟨toInt_small (by omega), toInt_small (by omega), toInt_small (by omega), toInt_small (by omega)⟩

theorem VBlock.Inside.small {b : VBlock} (h : b.Inside) : toInt b.i = b.i ∧ toInt b.n = b.n := by
  obtain ⟨h1, h2⟩ := h
  exact ⟨toInt_small (by omega), toInt_small (by omega)⟩

/-! ### Theorems -/

/-- Any element type, any library: the wrapper is the call of the library function with the caller's own numbers. -/
theorem C84_gemm_call (L : Lib V) (m n k ai aj bi bj ci cj di dj : Nat) (alpha beta : V) (A B C D : CMat)
    (hs : ∀ x ∈ [m, n, k, ai, aj, bi, bj, ci, cj, di, dj], x < 2 ^ 31) :
    BlasfeoApi.gemm_nn L m n k alpha A ai aj B bi bj beta C ci cj D di dj = L.gemm_nn m n k alpha A ai aj B bi bj beta C ci cj D di dj ∧
    BlasfeoApi.gemm_nt L m n k alpha A ai aj B bi bj beta C ci cj D di dj = L.gemm_nt m n k alpha A ai aj B bi bj beta C ci cj D di dj ∧
    BlasfeoApi.gemm_tn L m n k alpha A ai aj B bi bj beta C ci cj D di dj = L.gemm_tn m n k alpha A ai aj B bi bj beta C ci cj D di dj := by
  simp only [List.mem_cons, List.not_mem_nil, or_false, forall_eq_or_imp, forall_eq] at hs
  obtain ⟨h1, h2, h3, h4, h5, h6, h7, h8, h9, h10, h11⟩ := hs
  simp only [BlasfeoApi.gemm_nn, BlasfeoApi.gemm_nt, BlasfeoApi.gemm_tn, toInt_small h1, toInt_small h2, toInt_small h3, toInt_small h4, toInt_small h5, toInt_small h6,
    toInt_small h7, toInt_small h8, toInt_small h9, toInt_small h10, toInt_small h11, and_self]

theorem C84_trmm_call (L : Lib V) (m n ai aj bi bj di dj : Nat) (alpha : V) (A B D : CMat) (hs : ∀ x ∈ [m, n, ai, aj, bi, bj, di, dj], x < 2 ^ 31) :
    BlasfeoApi.trmm_rlnn L m n alpha A ai aj B bi bj D di dj = L.trmm_rlnn m n alpha A ai aj B bi bj D di dj ∧
    BlasfeoApi.trmm_rutn L m n alpha A ai aj B bi bj D di dj = L.trmm_rutn m n alpha A ai aj B bi bj D di dj := by
  simp only [List.mem_cons, List.not_mem_nil, or_false, forall_eq_or_imp, forall_eq] at hs
  obtain ⟨h1, h2, h4, h5, h6, h7, h10, h11⟩ := hs
  simp only [BlasfeoApi.trmm_rlnn, BlasfeoApi.trmm_rutn, toInt_small h1, toInt_small h2, toInt_small h4, toInt_small h5, toInt_small h6,
    toInt_small h7, toInt_small h10, toInt_small h11, and_self]

/-- `cv` is the conversion of alpha and beta from double to the element type: for float both are rounded to float first. -/
theorem C84_syrk_call {W : Type} (cv : W → V) (L : Lib V) (m k ai aj bi bj ci cj di dj : Nat) (alpha beta : W) (A B C D : CMat)
    (hs : ∀ x ∈ [m, k, ai, aj, bi, bj, ci, cj, di, dj], x < 2 ^ 31) :
    BlasfeoApi.syrk_ln L cv m k alpha A ai aj B bi bj beta C ci cj D di dj = L.syrk_ln m k (cv alpha) A ai aj B bi bj (cv beta) C ci cj D di dj ∧
    BlasfeoApi.syrk_potrf L m k A ai aj B bi bj C ci cj D di dj = L.syrk_potrf_ln m k A ai aj B bi bj C ci cj D di dj ∧
    BlasfeoApi.potrf L m C ci cj D di dj = L.potrf_l m C ci cj D di dj := by
  simp only [List.mem_cons, List.not_mem_nil, or_false, forall_eq_or_imp, forall_eq] at hs
  obtain ⟨h1, h2, h4, h5, h6, h7, h8, h9, h10, h11⟩ := hs
  simp only [BlasfeoApi.syrk_ln, BlasfeoApi.syrk_potrf, BlasfeoApi.potrf, toInt_small h1, toInt_small h2, toInt_small h4, toInt_small h5, toInt_small h6,
    toInt_small h7, toInt_small h8, toInt_small h9, toInt_small h10, toInt_small h11, and_self]

theorem C84_vec_call (L : Lib V) (m i : Nat) (x y : Int) (alpha : V) (v : CVec) (hm : m < 2 ^ 31) (hi : i < 2 ^ 31) :
    BlasfeoApi.pack_vec L m x v i = L.pack_vec m x v i ∧ BlasfeoApi.unpack_vec L m v i y = L.unpack_vec m v i y ∧
    BlasfeoApi.vecse L m alpha v i = L.vecse m alpha v i ∧ BlasfeoApi.vecsc L m alpha v i = L.vecsc m alpha v i := by
  simp only [BlasfeoApi.pack_vec, BlasfeoApi.unpack_vec, BlasfeoApi.vecse, BlasfeoApi.vecsc, toInt_small hm, toInt_small hi, and_self]

/-- A matrix made with sizes below 2^31 reports them. -/
theorem C84_size (lay : Int → Int → Int → Int → Int → Int) (m n : Nat) (memory : Int) (hm : m < 2 ^ 31) (hn : n < 2 ^ 31) :
    rows (create_mat lay m n memory) = m ∧ columns (create_mat lay m n memory) = n := by
  simp only [rows, columns, create_mat, toSize, toInt_small hm, toInt_small hn]
  omega

/-- Storage: if the layout of the library keeps every element (of `sz` units) of an m-by-n matrix inside the memory size the library states for m-by-n matrices, then every element of
a matrix made by `create_mat` with sizes below 2^31 lies inside a block of `memsize_mat(m, n)` units. -/
theorem C84_memsize (lay : Int → Int → Int → Int → Int → Int) (memsizeD : Int → Int → Nat) (sz : Int)
    (hlay : ∀ m n memory i j, 0 ≤ i → i < m → 0 ≤ j → j < n → memory ≤ lay m n memory i j ∧ lay m n memory i j + sz ≤ memory + memsizeD m n)
    {m n : Nat} (hm : m < 2 ^ 31) (hn : n < 2 ^ 31) (memory : Int) {i j : Nat} (hi : i < m) (hj : j < n) :
    memory ≤ (create_mat lay m n memory).addr i j ∧ (create_mat lay m n memory).addr i j + sz ≤ memory + memsize_mat memsizeD m n := by
  simp only [create_mat, memsize_mat, toInt_small hm, toInt_small hn]
  exact hlay m n memory i j (by omega) (by omega) (by omega) (by omega)

/-- No matrix of 2^31 rows or more (up to the largest sizes a matrix can have in memory) reports its number of rows. -/
theorem C84_size_refuted (lay : Int → Int → Int → Int → Int → Int) (m n : Nat) (memory : Int) (hm : 2 ^ 31 ≤ m) (hm' : m < 2 ^ 64 - 2 ^ 31) :
    rows (create_mat lay m n memory) ≠ m := by
  have h1 : toInt m < 2 ^ 31 := by
    have := Int.bmod_lt (x := (m : Int)) (m := 2 ^ 32) (by decide)
    unfold toInt; omega
  have h2 : -2 ^ 31 ≤ toInt m := by
    have := Int.le_bmod (x := (m : Int)) (m := 2 ^ 32) (by decide)
    unfold toInt; omega
  simp only [rows, create_mat, toSize]
  generalize toInt m = z at h1 h2
  omega

theorem toInt_wrap (n N : Nat) (hN : N = 2 ^ 32) : toInt (n + N) = toInt n := by
  unfold toInt
  rw [← hN, Int.natCast_add, Int.add_bmod_right]

/-- The sizes are not checked: a product of m + 2^32 rows is computed, without any error, as a product of m rows; likewise a matrix of m + 2^32 rows is created as one of m
rows, and the memory asked for is the memory of the small matrix. -/
theorem C84_wrap_refuted (L : Lib V) (lay : Int → Int → Int → Int → Int → Int) (memsizeD : Int → Int → Nat) (m n k ai aj bi bj ci cj di dj : Nat) (memory : Int)
    (alpha beta : V) (A B C D : CMat) (N : Nat) (hN : N = 2 ^ 32) :
    BlasfeoApi.gemm_nn L (m + N) n k alpha A ai aj B bi bj beta C ci cj D di dj = BlasfeoApi.gemm_nn L m n k alpha A ai aj B bi bj beta C ci cj D di dj ∧
    create_mat lay (m + N) n memory = create_mat lay m n memory ∧ memsize_mat memsizeD (m + N) n = memsize_mat memsizeD m n := by
  simp only [BlasfeoApi.gemm_nn, create_mat, memsize_mat, toInt_wrap _ _ hN, and_self]

theorem C84_gemm_nn [Field V] [LinearOrder V] (L : Lib V) (hL : L.Correct) :
    ∀ (mem : Mem V) (A B C D : Block) (alpha beta : V) (a b c : Nat → Nat → V), A.Inside → B.Inside → C.Inside → D.Target mem → A.Apart D → B.Apart D → (C = D ∨ C.Apart D) →
    A.r = D.r → B.c = D.c → B.r = A.c → C.r = D.r → C.c = D.c → A.Has all mem a → B.Has all mem b → C.Has all mem c →
    Stores all (BlasfeoApi.gemm_nn L D.r D.c A.c alpha A.M A.i A.j B.M B.i B.j beta C.M C.i C.j D.M D.i D.j) mem D (fun p q => beta * c p q + alpha * ∑ k ∈ range A.c, a p k * b k q) := by
  intro mem A B C D alpha beta a b c hA hB hC hD hAD hBD hCD e1 e2 e3 e4 e5 ha hb hc
  have := hL.gemm_nn mem A B C D alpha beta a b c hA hB hC hD hAD hBD hCD e1 e2 e3 e4 e5 ha hb hc
  obtain ⟨A1, A2, A3, A4⟩ := hA.small
  obtain ⟨B1, B2, B3, B4⟩ := hB.small
  obtain ⟨C1, C2, C3, C4⟩ := hC.small
  obtain ⟨D1, D2, D3, D4⟩ := hD.1.small
  simpa only [BlasfeoApi.gemm_nn, id, A1, A2, A3, A4, B1, B2, B3, B4, C1, C2, C3, C4, D1, D2, D3, D4] using this

theorem C84_gemm_nt [Field V] [LinearOrder V] (L : Lib V) (hL : L.Correct) :
    ∀ (mem : Mem V) (A B C D : Block) (alpha beta : V) (a b c : Nat → Nat → V), A.Inside → B.Inside → C.Inside → D.Target mem → A.Apart D → B.Apart D → (C = D ∨ C.Apart D) →
    A.r = D.r → B.r = D.c → B.c = A.c → C.r = D.r → C.c = D.c → A.Has all mem a → B.Has all mem b → C.Has all mem c →
    Stores all (BlasfeoApi.gemm_nt L D.r D.c A.c alpha A.M A.i A.j B.M B.i B.j beta C.M C.i C.j D.M D.i D.j) mem D (fun p q => beta * c p q + alpha * ∑ k ∈ range A.c, a p k * b q k) := by
  intro mem A B C D alpha beta a b c hA hB hC hD hAD hBD hCD e1 e2 e3 e4 e5 ha hb hc
  have := hL.gemm_nt mem A B C D alpha beta a b c hA hB hC hD hAD hBD hCD e1 e2 e3 e4 e5 ha hb hc
  obtain ⟨A1, A2, A3, A4⟩ := hA.small
  obtain ⟨B1, B2, B3, B4⟩ := hB.small
  obtain ⟨C1, C2, C3, C4⟩ := hC.small
  obtain ⟨D1, D2, D3, D4⟩ := hD.1.small
  simpa only [BlasfeoApi.gemm_nt, id, A1, A2, A3, A4, B1, B2, B3, B4, C1, C2, C3, C4, D1, D2, D3, D4] using this

theorem C84_gemm_tn [Field V] [LinearOrder V] (L : Lib V) (hL : L.Correct) :
    ∀ (mem : Mem V) (A B C D : Block) (alpha beta : V) (a b c : Nat → Nat → V), A.Inside → B.Inside → C.Inside → D.Target mem → A.Apart D → B.Apart D → (C = D ∨ C.Apart D) →
    A.c = D.r → B.c = D.c → B.r = A.r → C.r = D.r → C.c = D.c → A.Has all mem a → B.Has all mem b → C.Has all mem c →
    Stores all (BlasfeoApi.gemm_tn L D.r D.c A.r alpha A.M A.i A.j B.M B.i B.j beta C.M C.i C.j D.M D.i D.j) mem D (fun p q => beta * c p q + alpha * ∑ k ∈ range A.r, a k p * b k q) := by
  intro mem A B C D alpha beta a b c hA hB hC hD hAD hBD hCD e1 e2 e3 e4 e5 ha hb hc
  have := hL.gemm_tn mem A B C D alpha beta a b c hA hB hC hD hAD hBD hCD e1 e2 e3 e4 e5 ha hb hc
  obtain ⟨A1, A2, A3, A4⟩ := hA.small
  obtain ⟨B1, B2, B3, B4⟩ := hB.small
  obtain ⟨C1, C2, C3, C4⟩ := hC.small
  obtain ⟨D1, D2, D3, D4⟩ := hD.1.small
  simpa only [BlasfeoApi.gemm_tn, id, A1, A2, A3, A4, B1, B2, B3, B4, C1, C2, C3, C4, D1, D2, D3, D4] using this

theorem C84_trmm_rlnn [Field V] [LinearOrder V] (L : Lib V) (hL : L.Correct) :
    ∀ (mem : Mem V) (A B D : Block) (alpha : V) (a b : Nat → Nat → V), A.Inside → B.Inside → D.Target mem → A.Apart D → B.Apart D →
    A.r = D.c → A.c = D.c → B.r = D.r → B.c = D.c → A.Has lower mem a → B.Has all mem b →
    Stores all (BlasfeoApi.trmm_rlnn L D.r D.c alpha A.M A.i A.j B.M B.i B.j D.M D.i D.j) mem D (fun p q => alpha * ∑ k ∈ range D.c, b p k * if q ≤ k then a k q else 0) := by
  intro mem A B D alpha a b hA hB hD hAD hBD e1 e2 e3 e4 ha hb
  have := hL.trmm_rlnn mem A B D alpha a b hA hB hD hAD hBD e1 e2 e3 e4 ha hb
  obtain ⟨A1, A2, A3, A4⟩ := hA.small
  obtain ⟨B1, B2, B3, B4⟩ := hB.small
  obtain ⟨D1, D2, D3, D4⟩ := hD.1.small
  simpa only [BlasfeoApi.trmm_rlnn, A1, A2, A3, A4, B1, B2, B3, B4, D1, D2, D3, D4] using this

theorem C84_trmm_rutn [Field V] [LinearOrder V] (L : Lib V) (hL : L.Correct) :
    ∀ (mem : Mem V) (A B D : Block) (alpha : V) (a b : Nat → Nat → V), A.Inside → B.Inside → D.Target mem → A.Apart D → B.Apart D →
    A.r = D.c → A.c = D.c → B.r = D.r → B.c = D.c → A.Has upper mem a → B.Has all mem b →
    Stores all (BlasfeoApi.trmm_rutn L D.r D.c alpha A.M A.i A.j B.M B.i B.j D.M D.i D.j) mem D (fun p q => alpha * ∑ k ∈ range D.c, b p k * if q ≤ k then a q k else 0) := by
  intro mem A B D alpha a b hA hB hD hAD hBD e1 e2 e3 e4 ha hb
  have := hL.trmm_rutn mem A B D alpha a b hA hB hD hAD hBD e1 e2 e3 e4 ha hb
  obtain ⟨A1, A2, A3, A4⟩ := hA.small
  obtain ⟨B1, B2, B3, B4⟩ := hB.small
  obtain ⟨D1, D2, D3, D4⟩ := hD.1.small
  simpa only [BlasfeoApi.trmm_rutn, A1, A2, A3, A4, B1, B2, B3, B4, D1, D2, D3, D4] using this

theorem C84_syrk_ln [Field V] [LinearOrder V] (L : Lib V) (hL : L.Correct) :
    ∀ (mem : Mem V) (A B C D : Block) (alpha beta : V) (a b c : Nat → Nat → V), A.Inside → B.Inside → C.Inside → D.Target mem → A.Apart D → B.Apart D → (C = D ∨ C.Apart D) →
    A.r = D.r → D.c = D.r → B.r = D.r → B.c = A.c → C.r = D.r → C.c = D.r → A.Has all mem a → B.Has all mem b → C.Has lower mem c →
    Stores lower (BlasfeoApi.syrk_ln L id D.r A.c alpha A.M A.i A.j B.M B.i B.j beta C.M C.i C.j D.M D.i D.j) mem D (fun p q => beta * c p q + alpha * ∑ k ∈ range A.c, a p k * b q k) := by
  intro mem A B C D alpha beta a b c hA hB hC hD hAD hBD hCD e1 e2 e3 e4 e5 e6 ha hb hc
  have := hL.syrk_ln mem A B C D alpha beta a b c hA hB hC hD hAD hBD hCD e1 e2 e3 e4 e5 e6 ha hb hc
  obtain ⟨A1, A2, A3, A4⟩ := hA.small
  obtain ⟨B1, B2, B3, B4⟩ := hB.small
  obtain ⟨C1, C2, C3, C4⟩ := hC.small
  obtain ⟨D1, D2, D3, D4⟩ := hD.1.small
  simpa only [BlasfeoApi.syrk_ln, id, A1, A2, A3, A4, B1, B2, B3, B4, C1, C2, C3, C4, D1, D2, D3, D4] using this

theorem C84_syrk_potrf [Field V] [LinearOrder V] (L : Lib V) (hL : L.Correct) :
    ∀ (mem : Mem V) (A B C D : Block) (a b c l : Nat → Nat → V), A.Inside → B.Inside → C.Inside → D.Target mem → A.Apart D → B.Apart D → (C = D ∨ C.Apart D) →
    A.r = D.r → D.c = D.r → B.r = D.r → B.c = A.c → C.r = D.r → C.c = D.r → A.Has all mem a → B.Has all mem b → C.Has lower mem c →
    IsCholesky D.r D.r l (fun p q => c p q + ∑ k ∈ range A.c, a p k * b q k) →
    Stores lower (BlasfeoApi.syrk_potrf L D.r A.c A.M A.i A.j B.M B.i B.j C.M C.i C.j D.M D.i D.j) mem D l := by
  intro mem A B C D a b c l hA hB hC hD hAD hBD hCD e1 e2 e3 e4 e5 e6 ha hb hc hl
  have := hL.syrk_potrf_ln mem A B C D a b c l hA hB hC hD hAD hBD hCD e1 e2 e3 e4 e5 e6 ha hb hc hl
  obtain ⟨A1, A2, A3, A4⟩ := hA.small
  obtain ⟨B1, B2, B3, B4⟩ := hB.small
  obtain ⟨C1, C2, C3, C4⟩ := hC.small
  obtain ⟨D1, D2, D3, D4⟩ := hD.1.small
  simpa only [BlasfeoApi.syrk_potrf, A1, A2, A3, A4, B1, B2, B3, B4, C1, C2, C3, C4, D1, D2, D3, D4] using this

theorem C84_potrf [Field V] [LinearOrder V] (L : Lib V) (hL : L.Correct) :
    ∀ (mem : Mem V) (C D : Block) (c l : Nat → Nat → V), C.Inside → D.Target mem → (C = D ∨ C.Apart D) →
    D.c = D.r → C.r = D.r → C.c = D.r → C.Has lower mem c →
    IsCholesky D.r D.r l c →
    Stores lower (BlasfeoApi.potrf L D.r C.M C.i C.j D.M D.i D.j) mem D l := by
  intro mem C D c l hC hD hCD e1 e2 e3 hc hl
  have := hL.potrf_l mem C D c l hC hD hCD e1 e2 e3 hc hl
  obtain ⟨C1, C2, C3, C4⟩ := hC.small
  obtain ⟨D1, D2, D3, D4⟩ := hD.1.small
  simpa only [BlasfeoApi.potrf, C1, C2, C3, C4, D1, D2, D3, D4] using this

theorem C84_pack_vec [Field V] [LinearOrder V] (L : Lib V) (hL : L.Correct) :
    ∀ (mem : Mem V) (x : Int) (y : VBlock) (f : Nat → V), y.Inside → y.Live mem → y.Distinct → (∀ p p' : Nat, p < y.n → p' < y.n → x + p ≠ y.cell p') →
    (∀ p : Nat, p < y.n → mem (x + p) = some (f p)) → VStores (BlasfeoApi.pack_vec L y.n x y.v y.i) mem y.n y.cell f := by
  intro mem x y f hy h1 h2 h3 h4
  have := hL.pack_vec mem x y f hy h1 h2 h3 h4
  obtain ⟨y1, y2⟩ := hy.small
  simpa only [BlasfeoApi.pack_vec, y1, y2] using this

theorem C84_unpack_vec [Field V] [LinearOrder V] (L : Lib V) (hL : L.Correct) :
    ∀ (mem : Mem V) (x : VBlock) (y : Int) (f : Nat → V), x.Inside → (∀ p : Nat, p < x.n → mem (y + p) ≠ none) → (∀ p p' : Nat, p < x.n → p' < x.n → x.cell p ≠ y + p') →
    (∀ p, p < x.n → mem (x.cell p) = some (f p)) → VStores (BlasfeoApi.unpack_vec L x.n x.v x.i y) mem x.n (fun p => y + p) f := by
  intro mem x y f hx h1 h2 h3
  have := hL.unpack_vec mem x y f hx h1 h2 h3
  obtain ⟨x1, x2⟩ := hx.small
  simpa only [BlasfeoApi.unpack_vec, x1, x2] using this

theorem C84_vecse [Field V] [LinearOrder V] (L : Lib V) (hL : L.Correct) :
    ∀ (mem : Mem V) (alpha : V) (x : VBlock), x.Inside → x.Live mem → x.Distinct → VStores (BlasfeoApi.vecse L x.n alpha x.v x.i) mem x.n x.cell (fun _ => alpha) := by
  intro mem alpha x hx h1 h2
  have := hL.vecse mem alpha x hx h1 h2
  obtain ⟨x1, x2⟩ := hx.small
  simpa only [BlasfeoApi.vecse, x1, x2] using this

theorem C84_vecsc [Field V] [LinearOrder V] (L : Lib V) (hL : L.Correct) :
    ∀ (mem : Mem V) (alpha : V) (x : VBlock) (f : Nat → V), x.Inside → x.Distinct → (∀ p, p < x.n → mem (x.cell p) = some (f p)) →
    VStores (BlasfeoApi.vecsc L x.n alpha x.v x.i) mem x.n x.cell (fun p => alpha * f p) := by
  intro mem alpha x f hx h1 h2
  have := hL.vecsc mem alpha x f hx h1 h2
  obtain ⟨x1, x2⟩ := hx.small
  simpa only [BlasfeoApi.vecsc, x1, x2] using this

end BlasfeoApi
end Blast
