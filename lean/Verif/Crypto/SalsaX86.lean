import Verif.Crypto.SalsaX86Machine

/-!
# Salsa20 and Salsa20/12 for SSE2 on 32-bit x86 (src/crypto/cipher/salsa20/xmm/salsa20_x86_xmm5.s, src/crypto/cipher/salsa2012/xmm/salsa2012_x86_xmm5.s)

Model only; line numbers are the ones of both files, which only differ in the number of rounds (lines 818 and 3902). The instructions were taken from the file by a
script. Not modelled: setting up the aligned stack frame, whose size is kept in `eax`, removing it, and setting the return value
(lines 295-298 and 4961-4962).
-/

namespace Fastd.Crypto.SalsaX86

open SalsaXmm (VI VSt Region Mem Layout Cond Exit)

/-- Registers of the caller, and the size of the frame (lines 303-323) -/
def save : List Instr :=
  [.stSlot eax 0, .stSlot ebx 1, .stSlot esi 2, .stSlot edi 3, .stSlot ebp 4]

/-- Arguments: result, message, low half of the length, nonce, key (lines 328-353) -/
def entry : List Instr :=
  [.ldArg 1 edi, .ldArg 2 esi, .ldArg 3 edx, .ldArg 5 ebx, .ldArg 6 ebp, .cmpI 0 edx]

/-- Words of the first block, on the diagonals of the matrix (lines 366-541) -/
def setup : List Instr :=
  [.stSlot edi 5, .stSlot edx 6, .movlLd 12 ebp eax, .movlLd 20 ebp ecx, .movlStF eax 8, .movlStF ecx 12, .movI 1634760805 eax, .movI 0 ecx,
   .movlStF eax 16, .movlStF ecx 20, .movlLd 0 ebx eax, .movlLd 4 ebx ecx, .movlStF eax 14, .movlStF ecx 23, .movI 0 eax, .movI 2036477234 ecx,
   .movlStF eax 9, .movlStF ecx 18, .movlLd 0 ebp eax, .movlLd 4 ebp ecx, .movlLd 8 ebp edx, .movI 857760878 ebx, .movlStF eax 13, .movlStF ecx 22,
   .movlStF edx 11, .movlStF ebx 17, .movlLd 16 ebp eax, .movlLd 24 ebp ecx, .movlLd 28 ebp edx, .movI 1797285236 ebx, .movlStF eax 15,
   .movlStF ecx 21, .movlStF edx 10, .movlStF ebx 19, .ldSlot 6 eax, .cmpI 256 eax]

/-- Each word four times (lines 550-705) -/
def broadcast : List VI :=
  [.movdqaLd 16 0, .pshufd 85 0 1, .pshufd 170 0 2, .pshufd 255 0 3, .pshufd 0 0 0, .movdqaSt 1 24, .movdqaSt 2 28, .movdqaSt 3 32, .movdqaSt 0 36,
   .movdqaLd 12 0, .pshufd 170 0 1, .pshufd 255 0 2, .pshufd 0 0 3, .pshufd 85 0 0, .movdqaSt 1 40, .movdqaSt 2 44, .movdqaSt 3 48, .movdqaSt 0 52,
   .movdqaLd 20 0, .pshufd 255 0 1, .pshufd 85 0 2, .pshufd 170 0 0, .movdqaSt 1 56, .movdqaSt 2 60, .movdqaSt 0 64, .movdqaLd 8 0, .pshufd 0 0 1,
   .pshufd 170 0 2, .pshufd 255 0 0, .movdqaSt 1 68, .movdqaSt 2 72, .movdqaSt 0 76]

/-- Numbers of the next four blocks (lines 713-818) -/
def counters (rounds : UInt32) : List Instr :=
  [.movlLdF 20 ecx, .movlLdF 9 edx, .movlStF ecx 80, .movlStF edx 84, .addI 1 ecx, .adcI 0 edx, .movlStF ecx 81, .movlStF edx 85, .addI 1 ecx,
   .adcI 0 edx, .movlStF ecx 82, .movlStF edx 86, .addI 1 ecx, .adcI 0 edx, .movlStF ecx 83, .movlStF edx 87, .addI 1 ecx, .adcI 0 edx,
   .movlStF ecx 20, .movlStF edx 9, .stSlot eax 6, .movI rounds eax]

/-- Words of the four blocks (lines 823-978) -/
def load4 : List VI :=
  [.movdqaLd 24 0, .movdqaLd 28 1, .movdqaLd 32 2, .movdqaLd 72 3, .movdqaLd 76 4, .movdqaLd 40 5, .movdqaLd 44 6, .movdqaLd 52 7, .movdqaSt 0 88,
   .movdqaSt 1 92, .movdqaSt 2 96, .movdqaSt 3 100, .movdqaSt 4 104, .movdqaSt 5 108, .movdqaSt 6 112, .movdqaSt 7 116, .movdqaLd 56 4,
   .movdqaLd 60 5, .movdqaLd 64 6, .movdqaLd 84 7, .movdqaLd 36 0, .movdqaLd 48 2, .movdqaLd 68 3, .movdqaLd 80 1, .movdqaSt 4 120, .movdqaSt 5 124,
   .movdqaSt 6 128, .movdqaSt 7 132, .movdqaSt 0 136, .movdqaSt 2 140, .movdqaSt 3 144, .movdqaSt 1 148]

/-- Two rounds for four blocks (lines 994-2405) -/
def mainloop1 : List VI :=
  [.movdqa 2 6, .paddd 0 2, .movdqa 2 4, .psrld 25 2, .pxor 2 3, .pslld 7 4, .pxor 4 3, .movdqaSt 3 136, .movdqa 0 2, .paddd 3 2, .movdqa 2 4,
   .psrld 23 2, .pxor 2 1, .pslld 9 4, .pxor 4 1, .movdqaSt 1 140, .paddd 1 3, .movdqa 3 2, .psrld 19 3, .pxor 3 6, .pslld 13 2, .pxor 2 6,
   .movdqaLd 116 2, .movdqaLd 88 4, .movdqaLd 132 3, .movdqaLd 124 5, .movdqaSt 6 124, .paddd 6 1, .movdqa 1 6, .psrld 14 1, .pxor 1 0, .pslld 18 6,
   .pxor 6 0, .movdqaSt 0 88, .movdqa 2 6, .paddd 4 2, .movdqa 2 0, .psrld 25 2, .pxor 2 3, .pslld 7 0, .pxor 0 3, .movdqaSt 3 132, .movdqa 4 0,
   .paddd 3 0, .movdqa 0 1, .psrld 23 0, .pxor 0 5, .pslld 9 1, .pxor 1 5, .movdqaSt 5 144, .paddd 5 3, .movdqa 3 0, .psrld 19 3, .pxor 3 6,
   .pslld 13 0, .pxor 0 6, .movdqaLd 108 2, .movdqaLd 92 0, .movdqaLd 100 3, .movdqaLd 128 1, .movdqaSt 6 92, .paddd 6 5, .movdqa 5 6, .psrld 14 5,
   .pxor 5 4, .pslld 18 6, .pxor 6 4, .movdqaSt 4 100, .movdqa 2 6, .paddd 0 2, .movdqa 2 4, .psrld 25 2, .pxor 2 3, .pslld 7 4, .pxor 4 3,
   .movdqaSt 3 148, .movdqa 0 2, .paddd 3 2, .movdqa 2 4, .psrld 23 2, .pxor 2 1, .pslld 9 4, .pxor 4 1, .movdqaSt 1 108, .paddd 1 3, .movdqa 3 2,
   .psrld 19 3, .pxor 3 6, .pslld 13 2, .pxor 2 6, .movdqaLd 112 2, .movdqaLd 96 4, .movdqaLd 104 3, .movdqaLd 120 5, .movdqaSt 6 96, .paddd 6 1,
   .movdqa 1 6, .psrld 14 1, .pxor 1 0, .pslld 18 6, .pxor 6 0, .movdqaSt 0 112, .movdqa 2 6, .paddd 4 2, .movdqa 2 0, .psrld 25 2, .pxor 2 3,
   .pslld 7 0, .pxor 0 3, .movdqaSt 3 104, .movdqa 4 0, .paddd 3 0, .movdqa 0 1, .psrld 23 0, .pxor 0 5, .pslld 9 1, .pxor 1 5, .movdqaSt 5 120,
   .paddd 5 3, .movdqa 3 0, .psrld 19 3, .pxor 3 6, .pslld 13 0, .pxor 0 6, .movdqaLd 104 2, .movdqaLd 88 0, .movdqaLd 92 3, .movdqaLd 108 1,
   .movdqaSt 6 88, .paddd 6 5, .movdqa 5 6, .psrld 14 5, .pxor 5 4, .pslld 18 6, .pxor 6 4, .movdqaSt 4 92, .movdqa 2 6, .paddd 0 2, .movdqa 2 4,
   .psrld 25 2, .pxor 2 3, .pslld 7 4, .pxor 4 3, .movdqaSt 3 116, .movdqa 0 2, .paddd 3 2, .movdqa 2 4, .psrld 23 2, .pxor 2 1, .pslld 9 4,
   .pxor 4 1, .movdqaSt 1 128, .paddd 1 3, .movdqa 3 2, .psrld 19 3, .pxor 3 6, .pslld 13 2, .pxor 2 6, .movdqaLd 136 2, .movdqaLd 100 4,
   .movdqaLd 96 3, .movdqaLd 120 5, .movdqaSt 6 104, .paddd 6 1, .movdqa 1 6, .psrld 14 1, .pxor 1 0, .pslld 18 6, .pxor 6 0, .movdqaSt 0 136,
   .movdqa 2 6, .paddd 4 2, .movdqa 2 0, .psrld 25 2, .pxor 2 3, .pslld 7 0, .pxor 0 3, .movdqaSt 3 108, .movdqa 4 0, .paddd 3 0, .movdqa 0 1,
   .psrld 23 0, .pxor 0 5, .pslld 9 1, .pxor 1 5, .movdqaSt 5 120, .paddd 5 3, .movdqa 3 0, .psrld 19 3, .pxor 3 6, .pslld 13 0, .pxor 0 6,
   .movdqaLd 132 2, .movdqaLd 112 0, .movdqaLd 88 3, .movdqaLd 140 1, .movdqaSt 6 140, .paddd 6 5, .movdqa 5 6, .psrld 14 5, .pxor 5 4, .pslld 18 6,
   .pxor 6 4, .movdqaSt 4 88, .movdqa 2 6, .paddd 0 2, .movdqa 2 4, .psrld 25 2, .pxor 2 3, .pslld 7 4, .pxor 4 3, .movdqaSt 3 112, .movdqa 0 2,
   .paddd 3 2, .movdqa 2 4, .psrld 23 2, .pxor 2 1, .pslld 9 4, .pxor 4 1, .movdqaSt 1 152, .paddd 1 3, .movdqa 3 2, .psrld 19 3, .pxor 3 6,
   .pslld 13 2, .pxor 2 6, .movdqaLd 148 2, .movdqaLd 92 4, .movdqaLd 124 3, .movdqaLd 144 5, .movdqaSt 6 132, .paddd 6 1, .movdqa 1 6, .psrld 14 1,
   .pxor 1 0, .pslld 18 6, .pxor 6 0, .movdqaSt 0 92, .movdqa 2 6, .paddd 4 2, .movdqa 2 0, .psrld 25 2, .pxor 2 3, .pslld 7 0, .pxor 0 3,
   .movdqaSt 3 144, .movdqa 4 0, .paddd 3 0, .movdqa 0 1, .psrld 23 0, .pxor 0 5, .pslld 9 1, .pxor 1 5, .movdqaSt 5 124, .paddd 5 3, .movdqa 3 0,
   .psrld 19 3, .pxor 3 6, .pslld 13 0, .pxor 0 6, .movdqaLd 144 2, .movdqaLd 136 0, .movdqaLd 140 3, .movdqaLd 152 1, .movdqaSt 6 100, .paddd 6 5,
   .movdqa 5 6, .psrld 14 5, .pxor 5 4, .pslld 18 6, .pxor 6 4, .movdqaSt 4 96]

/-- Adding, and four blocks of the result (lines 2419-3809) -/
def out4 : List Instr :=
  [.ldSlot 5 edi, .v (.movdqaLd 136 0), .v (.movdqaLd 116 1), .v (.movdqaLd 128 2), .v (.movdqaLd 104 3), .v (.padddLd 36 0), .v (.padddLd 52 1),
   .v (.padddLd 64 2), .v (.padddLd 76 3), .movd 0 eax, .movd 1 ecx, .movd 2 edx, .movd 3 ebx, .v (.pshufd 57 0 0), .v (.pshufd 57 1 1),
   .v (.pshufd 57 2 2), .v (.pshufd 57 3 3), .xorl 0 esi eax, .xorl 4 esi ecx, .xorl 8 esi edx, .xorl 12 esi ebx, .movlSt eax 0 edi,
   .movlSt ecx 4 edi, .movlSt edx 8 edi, .movlSt ebx 12 edi, .movd 0 eax, .movd 1 ecx, .movd 2 edx, .movd 3 ebx, .v (.pshufd 57 0 0),
   .v (.pshufd 57 1 1), .v (.pshufd 57 2 2), .v (.pshufd 57 3 3), .xorl 64 esi eax, .xorl 68 esi ecx, .xorl 72 esi edx, .xorl 76 esi ebx,
   .movlSt eax 64 edi, .movlSt ecx 68 edi, .movlSt edx 72 edi, .movlSt ebx 76 edi, .movd 0 eax, .movd 1 ecx, .movd 2 edx, .movd 3 ebx,
   .v (.pshufd 57 0 0), .v (.pshufd 57 1 1), .v (.pshufd 57 2 2), .v (.pshufd 57 3 3), .xorl 128 esi eax, .xorl 132 esi ecx, .xorl 136 esi edx,
   .xorl 140 esi ebx, .movlSt eax 128 edi, .movlSt ecx 132 edi, .movlSt edx 136 edi, .movlSt ebx 140 edi, .movd 0 eax, .movd 1 ecx, .movd 2 edx,
   .movd 3 ebx, .xorl 192 esi eax, .xorl 196 esi ecx, .xorl 200 esi edx, .xorl 204 esi ebx, .movlSt eax 192 edi, .movlSt ecx 196 edi,
   .movlSt edx 200 edi, .movlSt ebx 204 edi, .v (.movdqaLd 140 0), .v (.movdqaLd 88 1), .v (.movdqaLd 108 2), .v (.movdqaLd 120 3),
   .v (.padddLd 68 0), .v (.padddLd 24 1), .v (.padddLd 40 2), .v (.padddLd 56 3), .movd 0 eax, .movd 1 ecx, .movd 2 edx, .movd 3 ebx,
   .v (.pshufd 57 0 0), .v (.pshufd 57 1 1), .v (.pshufd 57 2 2), .v (.pshufd 57 3 3), .xorl 16 esi eax, .xorl 20 esi ecx, .xorl 24 esi edx,
   .xorl 28 esi ebx, .movlSt eax 16 edi, .movlSt ecx 20 edi, .movlSt edx 24 edi, .movlSt ebx 28 edi, .movd 0 eax, .movd 1 ecx, .movd 2 edx,
   .movd 3 ebx, .v (.pshufd 57 0 0), .v (.pshufd 57 1 1), .v (.pshufd 57 2 2), .v (.pshufd 57 3 3), .xorl 80 esi eax, .xorl 84 esi ecx,
   .xorl 88 esi edx, .xorl 92 esi ebx, .movlSt eax 80 edi, .movlSt ecx 84 edi, .movlSt edx 88 edi, .movlSt ebx 92 edi, .movd 0 eax, .movd 1 ecx,
   .movd 2 edx, .movd 3 ebx, .v (.pshufd 57 0 0), .v (.pshufd 57 1 1), .v (.pshufd 57 2 2), .v (.pshufd 57 3 3), .xorl 144 esi eax,
   .xorl 148 esi ecx, .xorl 152 esi edx, .xorl 156 esi ebx, .movlSt eax 144 edi, .movlSt ecx 148 edi, .movlSt edx 152 edi, .movlSt ebx 156 edi,
   .movd 0 eax, .movd 1 ecx, .movd 2 edx, .movd 3 ebx, .xorl 208 esi eax, .xorl 212 esi ecx, .xorl 216 esi edx, .xorl 220 esi ebx,
   .movlSt eax 208 edi, .movlSt ecx 212 edi, .movlSt edx 216 edi, .movlSt ebx 220 edi, .v (.movdqaLd 152 0), .v (.movdqaLd 132 1),
   .v (.movdqaLd 92 2), .v (.movdqaLd 112 3), .v (.padddLd 80 0), .v (.padddLd 84 1), .v (.padddLd 28 2), .v (.padddLd 44 3), .movd 0 eax,
   .movd 1 ecx, .movd 2 edx, .movd 3 ebx, .v (.pshufd 57 0 0), .v (.pshufd 57 1 1), .v (.pshufd 57 2 2), .v (.pshufd 57 3 3), .xorl 32 esi eax,
   .xorl 36 esi ecx, .xorl 40 esi edx, .xorl 44 esi ebx, .movlSt eax 32 edi, .movlSt ecx 36 edi, .movlSt edx 40 edi, .movlSt ebx 44 edi, .movd 0 eax,
   .movd 1 ecx, .movd 2 edx, .movd 3 ebx, .v (.pshufd 57 0 0), .v (.pshufd 57 1 1), .v (.pshufd 57 2 2), .v (.pshufd 57 3 3), .xorl 96 esi eax,
   .xorl 100 esi ecx, .xorl 104 esi edx, .xorl 108 esi ebx, .movlSt eax 96 edi, .movlSt ecx 100 edi, .movlSt edx 104 edi, .movlSt ebx 108 edi,
   .movd 0 eax, .movd 1 ecx, .movd 2 edx, .movd 3 ebx, .v (.pshufd 57 0 0), .v (.pshufd 57 1 1), .v (.pshufd 57 2 2), .v (.pshufd 57 3 3),
   .xorl 160 esi eax, .xorl 164 esi ecx, .xorl 168 esi edx, .xorl 172 esi ebx, .movlSt eax 160 edi, .movlSt ecx 164 edi, .movlSt edx 168 edi,
   .movlSt ebx 172 edi, .movd 0 eax, .movd 1 ecx, .movd 2 edx, .movd 3 ebx, .xorl 224 esi eax, .xorl 228 esi ecx, .xorl 232 esi edx,
   .xorl 236 esi ebx, .movlSt eax 224 edi, .movlSt ecx 228 edi, .movlSt edx 232 edi, .movlSt ebx 236 edi, .v (.movdqaLd 144 0), .v (.movdqaLd 124 1),
   .v (.movdqaLd 100 2), .v (.movdqaLd 96 3), .v (.padddLd 48 0), .v (.padddLd 60 1), .v (.padddLd 72 2), .v (.padddLd 32 3), .movd 0 eax,
   .movd 1 ecx, .movd 2 edx, .movd 3 ebx, .v (.pshufd 57 0 0), .v (.pshufd 57 1 1), .v (.pshufd 57 2 2), .v (.pshufd 57 3 3), .xorl 48 esi eax,
   .xorl 52 esi ecx, .xorl 56 esi edx, .xorl 60 esi ebx, .movlSt eax 48 edi, .movlSt ecx 52 edi, .movlSt edx 56 edi, .movlSt ebx 60 edi, .movd 0 eax,
   .movd 1 ecx, .movd 2 edx, .movd 3 ebx, .v (.pshufd 57 0 0), .v (.pshufd 57 1 1), .v (.pshufd 57 2 2), .v (.pshufd 57 3 3), .xorl 112 esi eax,
   .xorl 116 esi ecx, .xorl 120 esi edx, .xorl 124 esi ebx, .movlSt eax 112 edi, .movlSt ecx 116 edi, .movlSt edx 120 edi, .movlSt ebx 124 edi,
   .movd 0 eax, .movd 1 ecx, .movd 2 edx, .movd 3 ebx, .v (.pshufd 57 0 0), .v (.pshufd 57 1 1), .v (.pshufd 57 2 2), .v (.pshufd 57 3 3),
   .xorl 176 esi eax, .xorl 180 esi ecx, .xorl 184 esi edx, .xorl 188 esi ebx, .movlSt eax 176 edi, .movlSt ecx 180 edi, .movlSt edx 184 edi,
   .movlSt ebx 188 edi, .movd 0 eax, .movd 1 ecx, .movd 2 edx, .movd 3 ebx, .xorl 240 esi eax, .xorl 244 esi ecx, .xorl 248 esi edx,
   .xorl 252 esi ebx, .movlSt eax 240 edi, .movlSt ecx 244 edi, .movlSt edx 248 edi, .movlSt ebx 252 edi, .ldSlot 6 eax, .subI 256 eax,
   .addI 256 esi, .addI 256 edi, .stSlot edi 5, .cmpI 256 eax]

/-- A part of a block is copied (lines 3840-3863) -/
def copyIn : List Instr :=
  [.stSlot edi 5, .leaTmp edi, .mov eax ecx, .repMovsb, .leaTmp edi, .leaTmp esi]

/-- Words of one block (lines 3872-3902) -/
def single (rounds : UInt32) : List Instr :=
  [.stSlot eax 6, .v (.movdqaLd 16 0), .v (.movdqaLd 12 1), .v (.movdqaLd 20 2), .v (.movdqaLd 8 3), .v (.movdqa 1 4), .movI rounds eax]

/-- Four rounds for one block, before the subtraction (lines 3910-4485) -/
def mainloop2a : List VI :=
  [.paddd 0 4, .movdqa 0 5, .movdqa 4 6, .pslld 7 4, .psrld 25 6, .pxor 4 3, .pxor 6 3, .paddd 3 5, .movdqa 3 4, .movdqa 5 6, .pslld 9 5,
   .psrld 23 6, .pxor 5 2, .pshufd 147 3 3, .pxor 6 2, .paddd 2 4, .movdqa 2 5, .movdqa 4 6, .pslld 13 4, .psrld 19 6, .pxor 4 1, .pshufd 78 2 2,
   .pxor 6 1, .paddd 1 5, .movdqa 3 4, .movdqa 5 6, .pslld 18 5, .psrld 14 6, .pxor 5 0, .pshufd 57 1 1, .pxor 6 0, .paddd 0 4, .movdqa 0 5,
   .movdqa 4 6, .pslld 7 4, .psrld 25 6, .pxor 4 1, .pxor 6 1, .paddd 1 5, .movdqa 1 4, .movdqa 5 6, .pslld 9 5, .psrld 23 6, .pxor 5 2,
   .pshufd 147 1 1, .pxor 6 2, .paddd 2 4, .movdqa 2 5, .movdqa 4 6, .pslld 13 4, .psrld 19 6, .pxor 4 3, .pshufd 78 2 2, .pxor 6 3, .paddd 3 5,
   .movdqa 1 4, .movdqa 5 6, .pslld 18 5, .psrld 14 6, .pxor 5 0, .pshufd 57 3 3, .pxor 6 0, .paddd 0 4, .movdqa 0 5, .movdqa 4 6, .pslld 7 4,
   .psrld 25 6, .pxor 4 3, .pxor 6 3, .paddd 3 5, .movdqa 3 4, .movdqa 5 6, .pslld 9 5, .psrld 23 6, .pxor 5 2, .pshufd 147 3 3, .pxor 6 2,
   .paddd 2 4, .movdqa 2 5, .movdqa 4 6, .pslld 13 4, .psrld 19 6, .pxor 4 1, .pshufd 78 2 2, .pxor 6 1, .paddd 1 5, .movdqa 3 4, .movdqa 5 6,
   .pslld 18 5, .psrld 14 6, .pxor 5 0, .pshufd 57 1 1, .pxor 6 0, .paddd 0 4, .movdqa 0 5, .movdqa 4 6, .pslld 7 4, .psrld 25 6, .pxor 4 1,
   .pxor 6 1, .paddd 1 5, .movdqa 1 4, .movdqa 5 6, .pslld 9 5, .psrld 23 6, .pxor 5 2, .pshufd 147 1 1, .pxor 6 2, .paddd 2 4, .movdqa 2 5,
   .movdqa 4 6, .pslld 13 4, .psrld 19 6, .pxor 4 3, .pshufd 78 2 2, .pxor 6 3]

/-- Four rounds for one block, after the subtraction (lines 4495-4535) -/
def mainloop2b : List VI :=
  [.paddd 3 5, .movdqa 1 4, .movdqa 5 6, .pslld 18 5, .pxor 7 7, .psrld 14 6, .pxor 5 0, .pshufd 57 3 3, .pxor 6 0]

/-- Adding, and one block of the result; number of the next block (lines 4544-4899) -/
def out1 : List Instr :=
  [.v (.padddLd 16 0), .v (.padddLd 12 1), .v (.padddLd 20 2), .v (.padddLd 8 3), .movd 0 eax, .movd 1 ecx, .movd 2 edx, .movd 3 ebx,
   .v (.pshufd 57 0 0), .v (.pshufd 57 1 1), .v (.pshufd 57 2 2), .v (.pshufd 57 3 3), .xorl 0 esi eax, .xorl 48 esi ecx, .xorl 32 esi edx,
   .xorl 16 esi ebx, .movlSt eax 0 edi, .movlSt ecx 48 edi, .movlSt edx 32 edi, .movlSt ebx 16 edi, .movd 0 eax, .movd 1 ecx, .movd 2 edx,
   .movd 3 ebx, .v (.pshufd 57 0 0), .v (.pshufd 57 1 1), .v (.pshufd 57 2 2), .v (.pshufd 57 3 3), .xorl 20 esi eax, .xorl 4 esi ecx,
   .xorl 52 esi edx, .xorl 36 esi ebx, .movlSt eax 20 edi, .movlSt ecx 4 edi, .movlSt edx 52 edi, .movlSt ebx 36 edi, .movd 0 eax, .movd 1 ecx,
   .movd 2 edx, .movd 3 ebx, .v (.pshufd 57 0 0), .v (.pshufd 57 1 1), .v (.pshufd 57 2 2), .v (.pshufd 57 3 3), .xorl 40 esi eax, .xorl 24 esi ecx,
   .xorl 8 esi edx, .xorl 56 esi ebx, .movlSt eax 40 edi, .movlSt ecx 24 edi, .movlSt edx 8 edi, .movlSt ebx 56 edi, .movd 0 eax, .movd 1 ecx,
   .movd 2 edx, .movd 3 ebx, .xorl 60 esi eax, .xorl 44 esi ecx, .xorl 28 esi edx, .xorl 12 esi ebx, .movlSt eax 60 edi, .movlSt ecx 44 edi,
   .movlSt edx 28 edi, .movlSt ebx 12 edi, .ldSlot 6 eax, .movlLdF 20 ecx, .movlLdF 9 edx, .addI 1 ecx, .adcI 0 edx, .movlStF ecx 20, .movlStF edx 9,
   .cmpI 64 eax]

/-- A part of a block is copied back (lines 4912-4925) -/
def copyOut : List Instr :=
  [.mov edi esi, .ldSlot 5 edi, .mov eax ecx, .repMovsb]

/-- Registers of the caller (lines 4938-4958) -/
def restore : List Instr :=
  [.ldSlot 0 eax, .ldSlot 1 ebx, .ldSlot 2 esi, .ldSlot 3 edi, .ldSlot 4 ebp]

inductive Label
  | entry | start | broadcast | atLeast256 | mainloop1 | out4 | rest | between1and255 | copyIn | nocopy | mainloop2 | out1 | last | copyOut | done | next
deriving DecidableEq, Repr

/-- The whole function. -/
def prog (rounds : UInt32) : Label → List Instr × Exit Label
  -- line 357
  | .entry => (save ++ entry, .jcc .jbe .done .start)
  -- line 545
  | .start => (setup, .jcc .jb .between1and255 .broadcast)
  | .broadcast => (SalsaX86.broadcast.map .v, .jmp .atLeast256)
  | .atLeast256 => (counters rounds ++ load4.map .v, .jmp .mainloop1)
  -- lines 2410-2414
  | .mainloop1 => (SalsaX86.mainloop1.map .v ++ [.subI 2 eax], .jcc .ja .mainloop1 .out4)
  -- line 3813
  | .out4 => (out4, .jcc .jae .atLeast256 .rest)
  -- lines 3818-3822
  | .rest => ([.cmpI 0 eax], .jcc .jbe .done .between1and255)
  -- lines 3831-3835
  | .between1and255 => ([.cmpI 64 eax], .jcc .jae .nocopy .copyIn)
  | .copyIn => (copyIn, .jmp .nocopy)
  | .nocopy => (single rounds, .jmp .mainloop2)
  -- lines 4490 and 4539
  | .mainloop2 => (mainloop2a.map .v ++ [.subI 4 eax] ++ mainloop2b.map .v, .jcc .ja .mainloop2 .out1)
  -- line 4903
  | .out1 => (out1, .jcc .ja .next .last)
  -- line 4907
  | .last => ([], .jcc .jae .done .copyOut)
  | .copyOut => (copyOut, .jmp .done)
  | .done => (restore, .ret)
  -- lines 4971-4985
  | .next => ([.subI 64 eax, .addI 64 edi, .addI 64 esi], .jmp .between1and255)

/-- The state in which the function is called: `fastd_salsa20_xmm_xor(c, m, mlen, n, k)`. `dst` is the memory the result goes to, `lo` and `hi` are the
halves of the length, `regs` are the registers, with the size of the frame in `eax`. -/
def initial (dst : Region) (lo hi : UInt32) (regs : Nat → UInt32) (v : VSt UInt32) (slot : Nat → Val) (mem : Mem) : St :=
  { gpr := fun r => .num (regs r)
    arg := fun i => if i = 1 then .ptr dst 0 else if i = 2 then .ptr .input 0 else if i = 3 then .num lo else if i = 4 then .num hi
      else if i = 5 then .ptr .nonce 0 else if i = 6 then .ptr .key 0 else .num 0
    slot, v, mem, flags := .other, ok := true }

end Fastd.Crypto.SalsaX86
