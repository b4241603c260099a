import Verif.Crypto.SalsaMachine

/-!
# Salsa20 and Salsa20/12 for SSE2 (src/crypto/cipher/salsa20/xmm/salsa20_amd64_xmm6.s, src/crypto/cipher/salsa2012/xmm/salsa2012_amd64_xmm6.s)

Model only; line numbers are the ones of both files, which only differ in the number of rounds (lines 921 and 3611). The instructions were taken from the file by a
script. Not modelled: setting up the aligned stack frame, whose size is kept in `r11`, removing it, and setting the return value
(lines 343-346 and 4695-4697).
-/

namespace Fastd.Crypto.SalsaXmm

/-- Registers of the caller (lines 351-381) -/
def save : List Instr :=
  [.movqStF r11 88, .movqStF r12 90, .movqStF r13 92, .movqStF r14 94, .movqStF r15 96, .movqStF rbx 98, .movqStF rbp 100]

/-- Arguments: result, message, length, nonce, key (lines 386-411) -/
def entry : List Instr :=
  [.mov rdi rdi, .mov rsi rsi, .mov rdx r9, .mov rcx rdx, .mov r8 r10, .cmpI 0 r9]

/-- Words of the first block, on the diagonals of the matrix (lines 424-584) -/
def setup : List Instr :=
  [.movlLd 20 r10 rcx, .movlLd 0 r10 r8, .movlLd 0 rdx rax, .movlLd 16 r10 r11, .movlStF rcx 0, .movlStF r8 1, .movlStF rax 2, .movlStF r11 3,
   .movI 0 rcx, .movlLd 24 r10 r8, .movlLd 4 r10 rax, .movlLd 4 rdx rdx, .movlStF rcx 4, .movlStF r8 5, .movlStF rax 6, .movlStF rdx 7,
   .movlLd 12 r10 rdx, .movI 0 rcx, .movlLd 28 r10 r8, .movlLd 8 r10 rax, .movlStF rdx 8, .movlStF rcx 9, .movlStF r8 10, .movlStF rax 11,
   .movI 1634760805 rdx, .movI 857760878 rcx, .movI 2036477234 r8, .movI 1797285236 rax, .movlStF rdx 12, .movlStF rcx 13, .movlStF r8 14,
   .movlStF rax 15, .cmpI 256 r9]

/-- Each word four times (lines 593-748) -/
def broadcast : List VI :=
  [.movdqaLd 12 0, .pshufd 85 0 1, .pshufd 170 0 2, .pshufd 255 0 3, .pshufd 0 0 0, .movdqaSt 1 16, .movdqaSt 2 20, .movdqaSt 3 24, .movdqaSt 0 28,
   .movdqaLd 0 0, .pshufd 170 0 1, .pshufd 255 0 2, .pshufd 0 0 3, .pshufd 85 0 0, .movdqaSt 1 32, .movdqaSt 2 36, .movdqaSt 3 40, .movdqaSt 0 44,
   .movdqaLd 4 0, .pshufd 255 0 1, .pshufd 85 0 2, .pshufd 170 0 0, .movdqaSt 1 48, .movdqaSt 2 52, .movdqaSt 0 56, .movdqaLd 8 0, .pshufd 0 0 1,
   .pshufd 170 0 2, .pshufd 255 0 0, .movdqaSt 1 60, .movdqaSt 2 64, .movdqaSt 0 68]

/-- Numbers of the next four blocks (lines 756-921) -/
def counters (rounds : UInt64) : List Instr :=
  [.movlLdF 4 rdx, .movlLdF 9 rcx, .movlStF rdx 72, .movlStF rcx 76, .addI 1 rdx, .shlI 32 rcx, .add rcx rdx, .mov rdx rcx, .shrI 32 rcx,
   .movlStF rdx 73, .movlStF rcx 77, .addI 1 rdx, .shlI 32 rcx, .add rcx rdx, .mov rdx rcx, .shrI 32 rcx, .movlStF rdx 74, .movlStF rcx 78,
   .addI 1 rdx, .shlI 32 rcx, .add rcx rdx, .mov rdx rcx, .shrI 32 rcx, .movlStF rdx 75, .movlStF rcx 79, .addI 1 rdx, .shlI 32 rcx, .add rcx rdx,
   .mov rdx rcx, .shrI 32 rcx, .movlStF rdx 4, .movlStF rcx 9, .movqStF r9 102, .movI rounds rdx]

/-- Words of the four blocks (lines 926-1001) -/
def load4 : List VI :=
  [.movdqaLd 16 0, .movdqaLd 20 1, .movdqaLd 24 2, .movdqaLd 64 3, .movdqaLd 68 4, .movdqaLd 32 5, .movdqaLd 36 6, .movdqaLd 44 7, .movdqaLd 48 8,
   .movdqaLd 52 9, .movdqaLd 56 10, .movdqaLd 76 11, .movdqaLd 28 12, .movdqaLd 40 13, .movdqaLd 60 14, .movdqaLd 72 15]

/-- Two rounds for four blocks (lines 1009-2204) -/
def mainloop1 : List VI :=
  [.movdqaSt 1 80, .movdqaSt 2 84, .movdqa 13 1, .paddd 12 1, .movdqa 1 2, .pslld 7 1, .pxor 1 14, .psrld 25 2, .pxor 2 14, .movdqa 7 1, .paddd 0 1,
   .movdqa 1 2, .pslld 7 1, .pxor 1 11, .psrld 25 2, .pxor 2 11, .movdqa 12 1, .paddd 14 1, .movdqa 1 2, .pslld 9 1, .pxor 1 15, .psrld 23 2,
   .pxor 2 15, .movdqa 0 1, .paddd 11 1, .movdqa 1 2, .pslld 9 1, .pxor 1 9, .psrld 23 2, .pxor 2 9, .movdqa 14 1, .paddd 15 1, .movdqa 1 2,
   .pslld 13 1, .pxor 1 13, .psrld 19 2, .pxor 2 13, .movdqa 11 1, .paddd 9 1, .movdqa 1 2, .pslld 13 1, .pxor 1 7, .psrld 19 2, .pxor 2 7,
   .movdqa 15 1, .paddd 13 1, .movdqa 1 2, .pslld 18 1, .pxor 1 12, .psrld 14 2, .pxor 2 12, .movdqaLd 80 1, .movdqaSt 12 80, .movdqa 9 2,
   .paddd 7 2, .movdqa 2 12, .pslld 18 2, .pxor 2 0, .psrld 14 12, .pxor 12 0, .movdqa 5 2, .paddd 1 2, .movdqa 2 12, .pslld 7 2, .pxor 2 3,
   .psrld 25 12, .pxor 12 3, .movdqaLd 84 2, .movdqaSt 0 84, .movdqa 6 0, .paddd 2 0, .movdqa 0 12, .pslld 7 0, .pxor 0 4, .psrld 25 12, .pxor 12 4,
   .movdqa 1 0, .paddd 3 0, .movdqa 0 12, .pslld 9 0, .pxor 0 10, .psrld 23 12, .pxor 12 10, .movdqa 2 0, .paddd 4 0, .movdqa 0 12, .pslld 9 0,
   .pxor 0 8, .psrld 23 12, .pxor 12 8, .movdqa 3 0, .paddd 10 0, .movdqa 0 12, .pslld 13 0, .pxor 0 5, .psrld 19 12, .pxor 12 5, .movdqa 4 0,
   .paddd 8 0, .movdqa 0 12, .pslld 13 0, .pxor 0 6, .psrld 19 12, .pxor 12 6, .movdqa 10 0, .paddd 5 0, .movdqa 0 12, .pslld 18 0, .pxor 0 1,
   .psrld 14 12, .pxor 12 1, .movdqaLd 80 0, .movdqaSt 1 80, .movdqa 4 1, .paddd 0 1, .movdqa 1 12, .pslld 7 1, .pxor 1 7, .psrld 25 12, .pxor 12 7,
   .movdqa 8 1, .paddd 6 1, .movdqa 1 12, .pslld 18 1, .pxor 1 2, .psrld 14 12, .pxor 12 2, .movdqaLd 84 12, .movdqaSt 2 84, .movdqa 14 1,
   .paddd 12 1, .movdqa 1 2, .pslld 7 1, .pxor 1 5, .psrld 25 2, .pxor 2 5, .movdqa 0 1, .paddd 7 1, .movdqa 1 2, .pslld 9 1, .pxor 1 10,
   .psrld 23 2, .pxor 2 10, .movdqa 12 1, .paddd 5 1, .movdqa 1 2, .pslld 9 1, .pxor 1 8, .psrld 23 2, .pxor 2 8, .movdqa 7 1, .paddd 10 1,
   .movdqa 1 2, .pslld 13 1, .pxor 1 4, .psrld 19 2, .pxor 2 4, .movdqa 5 1, .paddd 8 1, .movdqa 1 2, .pslld 13 1, .pxor 1 14, .psrld 19 2,
   .pxor 2 14, .movdqa 10 1, .paddd 4 1, .movdqa 1 2, .pslld 18 1, .pxor 1 0, .psrld 14 2, .pxor 2 0, .movdqaLd 80 1, .movdqaSt 0 80, .movdqa 8 0,
   .paddd 14 0, .movdqa 0 2, .pslld 18 0, .pxor 0 12, .psrld 14 2, .pxor 2 12, .movdqa 11 0, .paddd 1 0, .movdqa 0 2, .pslld 7 0, .pxor 0 6,
   .psrld 25 2, .pxor 2 6, .movdqaLd 84 2, .movdqaSt 12 84, .movdqa 3 0, .paddd 2 0, .movdqa 0 12, .pslld 7 0, .pxor 0 13, .psrld 25 12, .pxor 12 13,
   .movdqa 1 0, .paddd 6 0, .movdqa 0 12, .pslld 9 0, .pxor 0 15, .psrld 23 12, .pxor 12 15, .movdqa 2 0, .paddd 13 0, .movdqa 0 12, .pslld 9 0,
   .pxor 0 9, .psrld 23 12, .pxor 12 9, .movdqa 6 0, .paddd 15 0, .movdqa 0 12, .pslld 13 0, .pxor 0 11, .psrld 19 12, .pxor 12 11, .movdqa 13 0,
   .paddd 9 0, .movdqa 0 12, .pslld 13 0, .pxor 0 3, .psrld 19 12, .pxor 12 3, .movdqa 15 0, .paddd 11 0, .movdqa 0 12, .pslld 18 0, .pxor 0 1,
   .psrld 14 12, .pxor 12 1, .movdqa 9 0, .paddd 3 0, .movdqa 0 12, .pslld 18 0, .pxor 0 2, .psrld 14 12, .pxor 12 2, .movdqaLd 80 12, .movdqaLd 84 0]

/-- Adding, and four blocks of the result (lines 2218-3518) -/
def out4 : List Instr :=
  [.v (.padddLd 28 12), .v (.padddLd 44 7), .v (.padddLd 56 10), .v (.padddLd 68 4), .movd 12 rdx, .movd 7 rcx, .movd 10 r8, .movd 4 r9,
   .v (.pshufd 57 12 12), .v (.pshufd 57 7 7), .v (.pshufd 57 10 10), .v (.pshufd 57 4 4), .xorl 0 rsi rdx, .xorl 4 rsi rcx, .xorl 8 rsi r8,
   .xorl 12 rsi r9, .movlSt rdx 0 rdi, .movlSt rcx 4 rdi, .movlSt r8 8 rdi, .movlSt r9 12 rdi, .movd 12 rdx, .movd 7 rcx, .movd 10 r8, .movd 4 r9,
   .v (.pshufd 57 12 12), .v (.pshufd 57 7 7), .v (.pshufd 57 10 10), .v (.pshufd 57 4 4), .xorl 64 rsi rdx, .xorl 68 rsi rcx, .xorl 72 rsi r8,
   .xorl 76 rsi r9, .movlSt rdx 64 rdi, .movlSt rcx 68 rdi, .movlSt r8 72 rdi, .movlSt r9 76 rdi, .movd 12 rdx, .movd 7 rcx, .movd 10 r8, .movd 4 r9,
   .v (.pshufd 57 12 12), .v (.pshufd 57 7 7), .v (.pshufd 57 10 10), .v (.pshufd 57 4 4), .xorl 128 rsi rdx, .xorl 132 rsi rcx, .xorl 136 rsi r8,
   .xorl 140 rsi r9, .movlSt rdx 128 rdi, .movlSt rcx 132 rdi, .movlSt r8 136 rdi, .movlSt r9 140 rdi, .movd 12 rdx, .movd 7 rcx, .movd 10 r8,
   .movd 4 r9, .xorl 192 rsi rdx, .xorl 196 rsi rcx, .xorl 200 rsi r8, .xorl 204 rsi r9, .movlSt rdx 192 rdi, .movlSt rcx 196 rdi,
   .movlSt r8 200 rdi, .movlSt r9 204 rdi, .v (.padddLd 60 14), .v (.padddLd 16 0), .v (.padddLd 32 5), .v (.padddLd 48 8), .movd 14 rdx,
   .movd 0 rcx, .movd 5 r8, .movd 8 r9, .v (.pshufd 57 14 14), .v (.pshufd 57 0 0), .v (.pshufd 57 5 5), .v (.pshufd 57 8 8), .xorl 16 rsi rdx,
   .xorl 20 rsi rcx, .xorl 24 rsi r8, .xorl 28 rsi r9, .movlSt rdx 16 rdi, .movlSt rcx 20 rdi, .movlSt r8 24 rdi, .movlSt r9 28 rdi, .movd 14 rdx,
   .movd 0 rcx, .movd 5 r8, .movd 8 r9, .v (.pshufd 57 14 14), .v (.pshufd 57 0 0), .v (.pshufd 57 5 5), .v (.pshufd 57 8 8), .xorl 80 rsi rdx,
   .xorl 84 rsi rcx, .xorl 88 rsi r8, .xorl 92 rsi r9, .movlSt rdx 80 rdi, .movlSt rcx 84 rdi, .movlSt r8 88 rdi, .movlSt r9 92 rdi, .movd 14 rdx,
   .movd 0 rcx, .movd 5 r8, .movd 8 r9, .v (.pshufd 57 14 14), .v (.pshufd 57 0 0), .v (.pshufd 57 5 5), .v (.pshufd 57 8 8), .xorl 144 rsi rdx,
   .xorl 148 rsi rcx, .xorl 152 rsi r8, .xorl 156 rsi r9, .movlSt rdx 144 rdi, .movlSt rcx 148 rdi, .movlSt r8 152 rdi, .movlSt r9 156 rdi,
   .movd 14 rdx, .movd 0 rcx, .movd 5 r8, .movd 8 r9, .xorl 208 rsi rdx, .xorl 212 rsi rcx, .xorl 216 rsi r8, .xorl 220 rsi r9, .movlSt rdx 208 rdi,
   .movlSt rcx 212 rdi, .movlSt r8 216 rdi, .movlSt r9 220 rdi, .v (.padddLd 72 15), .v (.padddLd 76 11), .v (.padddLd 20 1), .v (.padddLd 36 6),
   .movd 15 rdx, .movd 11 rcx, .movd 1 r8, .movd 6 r9, .v (.pshufd 57 15 15), .v (.pshufd 57 11 11), .v (.pshufd 57 1 1), .v (.pshufd 57 6 6),
   .xorl 32 rsi rdx, .xorl 36 rsi rcx, .xorl 40 rsi r8, .xorl 44 rsi r9, .movlSt rdx 32 rdi, .movlSt rcx 36 rdi, .movlSt r8 40 rdi,
   .movlSt r9 44 rdi, .movd 15 rdx, .movd 11 rcx, .movd 1 r8, .movd 6 r9, .v (.pshufd 57 15 15), .v (.pshufd 57 11 11), .v (.pshufd 57 1 1),
   .v (.pshufd 57 6 6), .xorl 96 rsi rdx, .xorl 100 rsi rcx, .xorl 104 rsi r8, .xorl 108 rsi r9, .movlSt rdx 96 rdi, .movlSt rcx 100 rdi,
   .movlSt r8 104 rdi, .movlSt r9 108 rdi, .movd 15 rdx, .movd 11 rcx, .movd 1 r8, .movd 6 r9, .v (.pshufd 57 15 15), .v (.pshufd 57 11 11),
   .v (.pshufd 57 1 1), .v (.pshufd 57 6 6), .xorl 160 rsi rdx, .xorl 164 rsi rcx, .xorl 168 rsi r8, .xorl 172 rsi r9, .movlSt rdx 160 rdi,
   .movlSt rcx 164 rdi, .movlSt r8 168 rdi, .movlSt r9 172 rdi, .movd 15 rdx, .movd 11 rcx, .movd 1 r8, .movd 6 r9, .xorl 224 rsi rdx,
   .xorl 228 rsi rcx, .xorl 232 rsi r8, .xorl 236 rsi r9, .movlSt rdx 224 rdi, .movlSt rcx 228 rdi, .movlSt r8 232 rdi, .movlSt r9 236 rdi,
   .v (.padddLd 40 13), .v (.padddLd 52 9), .v (.padddLd 64 3), .v (.padddLd 24 2), .movd 13 rdx, .movd 9 rcx, .movd 3 r8, .movd 2 r9,
   .v (.pshufd 57 13 13), .v (.pshufd 57 9 9), .v (.pshufd 57 3 3), .v (.pshufd 57 2 2), .xorl 48 rsi rdx, .xorl 52 rsi rcx, .xorl 56 rsi r8,
   .xorl 60 rsi r9, .movlSt rdx 48 rdi, .movlSt rcx 52 rdi, .movlSt r8 56 rdi, .movlSt r9 60 rdi, .movd 13 rdx, .movd 9 rcx, .movd 3 r8, .movd 2 r9,
   .v (.pshufd 57 13 13), .v (.pshufd 57 9 9), .v (.pshufd 57 3 3), .v (.pshufd 57 2 2), .xorl 112 rsi rdx, .xorl 116 rsi rcx, .xorl 120 rsi r8,
   .xorl 124 rsi r9, .movlSt rdx 112 rdi, .movlSt rcx 116 rdi, .movlSt r8 120 rdi, .movlSt r9 124 rdi, .movd 13 rdx, .movd 9 rcx, .movd 3 r8,
   .movd 2 r9, .v (.pshufd 57 13 13), .v (.pshufd 57 9 9), .v (.pshufd 57 3 3), .v (.pshufd 57 2 2), .xorl 176 rsi rdx, .xorl 180 rsi rcx,
   .xorl 184 rsi r8, .xorl 188 rsi r9, .movlSt rdx 176 rdi, .movlSt rcx 180 rdi, .movlSt r8 184 rdi, .movlSt r9 188 rdi, .movd 13 rdx, .movd 9 rcx,
   .movd 3 r8, .movd 2 r9, .xorl 240 rsi rdx, .xorl 244 rsi rcx, .xorl 248 rsi r8, .xorl 252 rsi r9, .movlSt rdx 240 rdi, .movlSt rcx 244 rdi,
   .movlSt r8 248 rdi, .movlSt r9 252 rdi, .movqLdF 102 r9, .subI 256 r9, .addI 256 rsi, .addI 256 rdi, .cmpI 256 r9]

/-- A part of a block is copied (lines 3549-3572) -/
def copyIn : List Instr :=
  [.mov rdi rdx, .leaTmp rdi, .mov r9 rcx, .repMovsb, .leaTmp rdi, .leaTmp rsi]

/-- Words of one block (lines 3581-3611) -/
def single (rounds : UInt64) : List Instr :=
  [.movqStF r9 102, .v (.movdqaLd 12 0), .v (.movdqaLd 0 1), .v (.movdqaLd 4 2), .v (.movdqaLd 8 3), .v (.movdqa 1 4), .movI rounds rcx]

/-- Four rounds for one block, before the subtraction (lines 3618-4194) -/
def mainloop2a : List VI :=
  [.paddd 0 4, .movdqa 0 5, .movdqa 4 6, .pslld 7 4, .psrld 25 6, .pxor 4 3, .pxor 6 3, .paddd 3 5, .movdqa 3 4, .movdqa 5 6, .pslld 9 5,
   .psrld 23 6, .pxor 5 2, .pshufd 147 3 3, .pxor 6 2, .paddd 2 4, .movdqa 2 5, .movdqa 4 6, .pslld 13 4, .psrld 19 6, .pxor 4 1, .pshufd 78 2 2,
   .pxor 6 1, .paddd 1 5, .movdqa 3 4, .movdqa 5 6, .pslld 18 5, .psrld 14 6, .pxor 5 0, .pshufd 57 1 1, .pxor 6 0, .paddd 0 4, .movdqa 0 5,
   .movdqa 4 6, .pslld 7 4, .psrld 25 6, .pxor 4 1, .pxor 6 1, .paddd 1 5, .movdqa 1 4, .movdqa 5 6, .pslld 9 5, .psrld 23 6, .pxor 5 2,
   .pshufd 147 1 1, .pxor 6 2, .paddd 2 4, .movdqa 2 5, .movdqa 4 6, .pslld 13 4, .psrld 19 6, .pxor 4 3, .pshufd 78 2 2, .pxor 6 3, .paddd 3 5,
   .movdqa 1 4, .movdqa 5 6, .pslld 18 5, .psrld 14 6, .pxor 5 0, .pshufd 57 3 3, .pxor 6 0, .paddd 0 4, .movdqa 0 5, .movdqa 4 6, .pslld 7 4,
   .psrld 25 6, .pxor 4 3, .pxor 6 3, .paddd 3 5, .movdqa 3 4, .movdqa 5 6, .pslld 9 5, .psrld 23 6, .pxor 5 2, .pshufd 147 3 3, .pxor 6 2,
   .paddd 2 4, .movdqa 2 5, .movdqa 4 6, .pslld 13 4, .psrld 19 6, .pxor 4 1, .pshufd 78 2 2, .pxor 6 1, .paddd 1 5, .movdqa 3 4, .movdqa 5 6,
   .pslld 18 5, .psrld 14 6, .pxor 5 0, .pshufd 57 1 1, .pxor 6 0, .paddd 0 4, .movdqa 0 5, .movdqa 4 6, .pslld 7 4, .psrld 25 6, .pxor 4 1,
   .pxor 6 1, .paddd 1 5, .movdqa 1 4, .movdqa 5 6, .pslld 9 5, .psrld 23 6, .pxor 5 2, .pshufd 147 1 1, .pxor 6 2, .paddd 2 4, .movdqa 2 5,
   .movdqa 4 6, .pslld 13 4, .psrld 19 6, .pxor 4 3, .pshufd 78 2 2, .pxor 6 3]

/-- Four rounds for one block, after the subtraction (lines 4204-4245) -/
def mainloop2b : List VI :=
  [.paddd 3 5, .movdqa 1 4, .movdqa 5 6, .pslld 18 5, .pxor 7 7, .psrld 14 6, .pxor 5 0, .pshufd 57 3 3, .pxor 6 0]

/-- Adding, and one block of the result; number of the next block (lines 4253-4623) -/
def out1 : List Instr :=
  [.v (.padddLd 12 0), .v (.padddLd 0 1), .v (.padddLd 4 2), .v (.padddLd 8 3), .movd 0 rcx, .movd 1 r8, .movd 2 r9, .movd 3 rax,
   .v (.pshufd 57 0 0), .v (.pshufd 57 1 1), .v (.pshufd 57 2 2), .v (.pshufd 57 3 3), .xorl 0 rsi rcx, .xorl 48 rsi r8, .xorl 32 rsi r9,
   .xorl 16 rsi rax, .movlSt rcx 0 rdi, .movlSt r8 48 rdi, .movlSt r9 32 rdi, .movlSt rax 16 rdi, .movd 0 rcx, .movd 1 r8, .movd 2 r9, .movd 3 rax,
   .v (.pshufd 57 0 0), .v (.pshufd 57 1 1), .v (.pshufd 57 2 2), .v (.pshufd 57 3 3), .xorl 20 rsi rcx, .xorl 4 rsi r8, .xorl 52 rsi r9,
   .xorl 36 rsi rax, .movlSt rcx 20 rdi, .movlSt r8 4 rdi, .movlSt r9 52 rdi, .movlSt rax 36 rdi, .movd 0 rcx, .movd 1 r8, .movd 2 r9, .movd 3 rax,
   .v (.pshufd 57 0 0), .v (.pshufd 57 1 1), .v (.pshufd 57 2 2), .v (.pshufd 57 3 3), .xorl 40 rsi rcx, .xorl 24 rsi r8, .xorl 8 rsi r9,
   .xorl 56 rsi rax, .movlSt rcx 40 rdi, .movlSt r8 24 rdi, .movlSt r9 8 rdi, .movlSt rax 56 rdi, .movd 0 rcx, .movd 1 r8, .movd 2 r9, .movd 3 rax,
   .xorl 60 rsi rcx, .xorl 44 rsi r8, .xorl 28 rsi r9, .xorl 12 rsi rax, .movlSt rcx 60 rdi, .movlSt r8 44 rdi, .movlSt r9 28 rdi,
   .movlSt rax 12 rdi, .movqLdF 102 r9, .movlLdF 4 rcx, .movlLdF 9 r8, .addI 1 rcx, .shlI 32 r8, .add r8 rcx, .mov rcx r8, .shrI 32 r8,
   .movlStF rcx 4, .movlStF r8 9, .cmpI 64 r9]

/-- A part of a block is copied back (lines 4636-4649) -/
def copyOut : List Instr :=
  [.mov rdi rsi, .mov rdx rdi, .mov r9 rcx, .repMovsb]

/-- Registers of the caller (lines 4662-4692) -/
def restore : List Instr :=
  [.movqLdF 88 r11, .movqLdF 90 r12, .movqLdF 92 r13, .movqLdF 94 r14, .movqLdF 96 r15, .movqLdF 98 rbx, .movqLdF 100 rbp]

inductive Label
  | entry | start | broadcast | atLeast256 | mainloop1 | out4 | rest | between1and255 | copyIn | nocopy | mainloop2 | out1 | last | copyOut | done | next
deriving DecidableEq, Repr

/-- The whole function. -/
def prog (rounds : UInt64) : Label → List Instr × Exit Label
  | .entry => (save ++ entry, .jcc .jbe .done .start)
  | .start => (setup, .jcc .jb .between1and255 .broadcast)
  | .broadcast => (SalsaXmm.broadcast.map .v, .jmp .atLeast256)
  | .atLeast256 => (counters rounds ++ load4.map .v, .jmp .mainloop1)
  -- lines 2209-2213
  | .mainloop1 => (SalsaXmm.mainloop1.map .v ++ [.subI 2 rdx], .jcc .ja .mainloop1 .out4)
  -- line 3522
  | .out4 => (out4, .jcc .jae .atLeast256 .rest)
  -- lines 3526-3531
  | .rest => ([.cmpI 0 r9], .jcc .jbe .done .between1and255)
  -- lines 3540-3544
  | .between1and255 => ([.cmpI 64 r9], .jcc .jae .nocopy .copyIn)
  | .copyIn => (copyIn, .jmp .nocopy)
  | .nocopy => (single rounds, .jmp .mainloop2)
  -- lines 4199 and 4248
  | .mainloop2 => (mainloop2a.map .v ++ [.subI 4 rcx] ++ mainloop2b.map .v, .jcc .ja .mainloop2 .out1)
  -- line 4627
  | .out1 => (out1, .jcc .ja .next .last)
  -- line 4631
  | .last => ([], .jcc .jae .done .copyOut)
  | .copyOut => (copyOut, .jmp .done)
  | .done => (restore, .ret)
  -- lines 4706-4720
  | .next => ([.subI 64 r9, .addI 64 rdi, .addI 64 rsi], .jmp .between1and255)

/-- The state in which the function is called: `fastd_salsa20_xmm_xor(c, m, mlen, n, k)`. `dst` is the memory the result goes to, `regs` are
the other registers. -/
def initial (dst : Region) (len : UInt64) (regs : Nat → UInt64) (v : VSt UInt32) (mem : Mem) : St :=
  { gpr := fun r => if r = rdi then .ptr dst 0 else if r = rsi then .ptr .input 0 else if r = rdx then .num len else if r = rcx then .ptr .nonce 0
      else if r = r8 then .ptr .key 0 else .num (regs r)
    v, mem, flags := none, ok := true }

/-- Memory when the function is called: messages may be encrypted in place (`dst` is `input`) or to other memory. -/
def layout (dst : Region) (len : Nat) : Layout where
  size
    | .input => len
    | .output => len
    | .nonce => 8
    | .key => 32
    | .tmp => 64
  writable r := decide (r = dst) || decide (r = .tmp)

end Fastd.Crypto.SalsaXmm
