"""Writes lean/Verif/Proofs/Primes.lean: Pocklington certificates for the curve constants.
Usage: gen_primes.py factor <N> (prints a certificate tree as JSON) | gen_primes.py emit."""
import sys, json, math, random, os
from math import gcd, isqrt
random.seed(1)
def is_prp(n):
    if n < 2: return False
    for p in (2,3,5,7,11,13,17,19,23,29,31,37):
        if n % p == 0: return n == p
    d, s = n-1, 0
    while d % 2 == 0: d//=2; s+=1
    for a in (2,3,5,7,11,13,17,19,23,29,31,37):
        x = pow(a,d,n)
        if x in (1,n-1): continue
        for _ in range(s-1):
            x = x*x%n
            if x == n-1: break
        else: return False
    return True
def sieve(n):
    s = bytearray([1])*(n+1); s[0:2]=b'\0\0'
    for i in range(2,isqrt(n)+1):
        if s[i]: s[i*i::i] = bytearray(len(range(i*i,n+1,i)))
    return [i for i in range(n+1) if s[i]]
PR = sieve(3000000)
def rho(n, lim=200000):
    y, c, m = random.randrange(1,n), random.randrange(1,n), 128
    g=r=q=1; cnt=0
    while g==1:
        x=y
        for _ in range(r): y=(y*y+c)%n
        k=0
        while k<r and g==1:
            ys=y
            for _ in range(min(m,r-k)):
                y=(y*y+c)%n; q=q*abs(x-y)%n
            g=gcd(q,n); k+=m; cnt+=m
        r*=2
        if cnt>lim: return None
    if g==n:
        g=1
        while g==1:
            ys=(ys*ys+c)%n; g=gcd(abs(x-ys),n)
    return g if g!=n else None
def ecm_curve(n,B1,B2):
    sigma=random.randrange(6,1<<60)
    u=(sigma*sigma-5)%n; v=4*sigma%n
    x=pow(u,3,n); z=pow(v,3,n)
    try: a24=(pow(v-u,3,n)*(3*u+v)*pow(16*pow(u,3,n)*v%n,-1,n))%n
    except ValueError: return gcd(16*pow(u,3,n)*v%n,n)
    def dbl(P):
        s=(P[0]+P[1]); s=s*s%n; d=(P[0]-P[1]); d=d*d%n; t=s-d
        return (s*d%n, t*(d+a24*t)%n)
    def add(P,Q,D):
        a=(P[0]-P[1])*(Q[0]+Q[1]); b=(P[0]+P[1])*(Q[0]-Q[1])
        s=a+b; d=a-b
        return (D[1]*(s*s%n)%n, D[0]*(d*d%n)%n)
    def mul(k,P):
        if k==1: return P
        R0,R1=P,dbl(P)
        for b in bin(k)[3:]:
            if b=='1': R0,R1=add(R1,R0,P),dbl(R1)
            else: R0,R1=dbl(R0),add(R1,R0,P)
        return R0
    P=(x,z)
    for p in PR:
        if p>B1: break
        q=p
        while q*p<=B1: q*=p
        P=mul(q,P)
    g=gcd(P[1],n)
    if g!=1: return g
    D=2310
    S={}
    S1=P; S2=dbl(P)
    prev=P; cur=add(S2,P,P); S[1]=P; S[3]=cur
    k=3
    while k<D//2:
        nxt=add(cur,S2,prev); prev,cur=cur,nxt; k+=2; S[k]=cur
    S={k:v for k,v in S.items() if gcd(k,D)==1}
    m=max(1,B1//D)
    QD=mul(D,P); T0=mul(m,QD) ; T1=mul(m+1,QD)
    Tm=mul(m-1,QD) if m>1 else None
    acc=1
    import bisect
    i=bisect.bisect(PR,m*D-D//2)
    T=T0; Tn=T1
    c=m
    while c*D<B2:
        hi=c*D+D//2
        seen=set()
        while i<len(PR) and PR[i]<hi:
            d=abs(PR[i]-c*D); i+=1
            if d in seen or d not in S: continue
            seen.add(d)
            Q=S[d]
            acc=acc*(T[0]*Q[1]-T[1]*Q[0])%n
        T,Tn=Tn,add(Tn,QD,T); c+=1
    return gcd(acc,n)
def split(n, log):
    for _ in range(3):
        g=rho(n)
        if g: return g
    for B1,B2,c in ((2000,100000,30),(11000,700000,80),(50000,2900000,250),(250000,2990000,2000)):
        for i in range(c):
            g=ecm_curve(n,B1,B2)
            if 1<g<n: return g
        if log: print("ecm level",B1,"done for",n.bit_length(),"bits",file=sys.stderr,flush=True)
    return None
KNOWN=[1124679999981664229965379347,
  3055465788140352002733946906144561090641249606160407884365391979704929268480326390471,
  1647781915921980690468599,
  3615194794881930010216942559103847593050265703173292383701371712350878926821661243755933835426896058418509759880171943]
def factor_until(m, bound):
    """prime factors of m with product F, (F+1)^2>bound"""
    fs=[]
    for p in PR[:20000]+KNOWN:
        while m%p==0: fs.append(p); m//=p
    stack=[m] if m>1 else []
    def F(): 
        r=1
        for f in fs: r*=f
        return r
    while stack and (F()+1)**2<=bound:
        stack.sort()
        # primes first
        pr=[x for x in stack if is_prp(x)]
        if pr:
            x=pr[0]; stack.remove(x); fs.append(x); continue
        x=stack.pop(0)
        g=split(x,True)
        if g is None: continue
        stack+= [g,x//g]
    if (F()+1)**2<=bound: return None
    # drop small factors while still enough
    fs.sort(reverse=True)
    out=[];r=1
    for f in fs:
        if (r+1)**2>bound: break
        out.append(f); r*=f
    # take all copies only as listed
    return out
def cert(N, memo):
    if N in memo: return True
    assert is_prp(N), N
    if N<1000000: memo[N]=None; return True
    fs=factor_until(N-1,N)
    if fs is None: return False
    res=[]
    for q in fs:
        a=2
        while not (pow(a,N-1,N)==1 and gcd(pow(a,(N-1)//q,N)+N-1,N)==1): a+=1
        res.append((q,a))
    for q in set(fs):
        if not cert(q,memo): return False
    memo[N]=res
    return True
if __name__=="__main__":
    N=int(sys.argv[1],0); memo={}
    ok=cert(N,memo)
    print(json.dumps({"N":N,"ok":ok,"cert":[[k,v] for k,v in memo.items()]}))
